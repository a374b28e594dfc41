import Verif.Detection.Rank
import Verif.Cache.SortProps
import Verif.Classification.CountsLemmas
import Mathlib.Tactic.Linarith
import Mathlib.Data.List.Dedup

/-! # Lemmas about ranking -/

namespace Verif.Detection

open Verif.Classification (isclose isclose_ids unique)
open Verif.Cache (SortedBy StableOf sortBy)

/-! ## First row of each key -/

section Unique
variable {α : Type}

theorem find_key (key : α → List Int) (l : List α) {k : List Int} {r : α}
    (h : l.find? (fun x => decide (key x = k)) = some r) : key r = k := by
  have := List.find?_some h
  simpa using this

theorem mem_uniqueFirst {key : α → List Int} {l : List α} {r : α} :
    r ∈ uniqueFirst key l ↔ l.find? (fun x => decide (key x = key r)) = some r := by
  unfold uniqueFirst
  rw [List.mem_filterMap]
  constructor
  · rintro ⟨k, _, hk⟩
    rw [find_key key l hk]
    exact hk
  · intro h
    refine ⟨key r, ?_, h⟩
    rw [List.mem_insertionSort, List.mem_dedup]
    exact List.mem_map_of_mem (List.mem_of_find?_eq_some h)

theorem uniqueFirst_keys (key : α → List Int) (l : List α) :
    (uniqueFirst key l).map key = (l.map key).dedup.insertionSort (· ≤ ·) := by
  unfold uniqueFirst
  have hk : ∀ k ∈ (l.map key).dedup.insertionSort (· ≤ ·), ∃ x ∈ l, key x = k := by
    intro k hk
    rw [List.mem_insertionSort, List.mem_dedup, List.mem_map] at hk
    exact hk
  generalize (l.map key).dedup.insertionSort (· ≤ ·) = ks at hk
  induction ks with
  | nil => rfl
  | cons k ks ih =>
    obtain ⟨x, hx, hxk⟩ := hk k (by simp)
    have : (l.find? (fun r => decide (key r = k))).isSome := by
      rw [List.find?_isSome]
      exact ⟨x, hx, by simpa using hxk⟩
    obtain ⟨r, hr⟩ := Option.isSome_iff_exists.1 this
    rw [List.filterMap_cons, hr]
    simp only [List.map_cons]
    rw [ih (fun k' h' => hk k' (by simp [h'])), find_key key l hr]

theorem uniqueFirst_nodup (key : α → List Int) (l : List α) : ((uniqueFirst key l).map key).Nodup := by
  rw [uniqueFirst_keys]
  exact (List.perm_insertionSort _ _).nodup_iff.2 (List.nodup_dedup _)

theorem uniqueFirst_mem {key : α → List Int} {l : List α} {r : α} (h : r ∈ uniqueFirst key l) : r ∈ l :=
  List.mem_of_find?_eq_some (mem_uniqueFirst.1 h)

theorem uniqueFirst_has {key : α → List Int} {l : List α} {x : α} (h : x ∈ l) :
    ∃ r ∈ uniqueFirst key l, key r = key x := by
  have : key x ∈ (uniqueFirst key l).map key := by
    rw [uniqueFirst_keys, List.mem_insertionSort, List.mem_dedup]
    exact List.mem_map_of_mem h
  obtain ⟨r, hr, he⟩ := List.mem_map.1 this
  exact ⟨r, hr, he⟩

/-- In a list ordered by `rk`, the first row of a key is the best of that key. -/
theorem uniqueFirst_best {key : α → List Int} {rk : α → List Rat} {l : List α}
    (hs : l.Pairwise (fun a b => rk a ≤ rk b)) {r c : α} (hr : r ∈ uniqueFirst key l) (hc : c ∈ l)
    (hk : key c = key r) : rk r ≤ rk c := by
  rw [mem_uniqueFirst, List.find?_eq_some_iff_append] at hr
  obtain ⟨_, as, bs, rfl, has⟩ := hr
  rw [List.mem_append, List.mem_cons] at hc
  rcases hc with hc | rfl | hc
  · have := has c hc
    simp [hk] at this
  · exact le_refl _
  · rw [List.pairwise_append, List.pairwise_cons] at hs
    exact hs.2.1.1 c hc

end Unique

/-! ## lexsort -/

theorem lexsort_perm {α : Type} (key : α → List Rat) (l : List α) : (lexsort key l).Perm l :=
  List.perm_insertionSort _ _

theorem lexsort_sorted {α : Type} (key : α → List Rat) (l : List α) :
    (lexsort key l).Pairwise (fun a b => key a ≤ key b) := by
  unfold lexsort
  have : Std.Total (fun a b : α => key a ≤ key b) := ⟨fun a b => le_total _ _⟩
  have : IsTrans α (fun a b => key a ≤ key b) := ⟨fun a b c => le_trans⟩
  exact List.pairwise_insertionSort _ _

theorem lex2 {a b c d : Rat} : ([a, b] : List Rat) < [c, d] ↔ a < c ∨ (a = c ∧ b < d) := by
  constructor
  · intro h
    have h' : List.Lex (· < ·) [a, b] [c, d] := h
    cases h' with
    | rel h => exact Or.inl h
    | cons h =>
      cases h with
      | rel h => exact Or.inr ⟨rfl, h⟩
      | cons h => cases h
  · rintro (h | ⟨rfl, h⟩)
    · exact List.Lex.rel h
    · exact List.Lex.cons (List.Lex.rel h)

theorem rankKey_lt {a b : Row} : rankKey a < rankKey b ↔ b.score < a.score ∨ (b.score = a.score ∧ b.iou < a.iou) := by
  unfold rankKey
  rw [lex2, neg_lt_neg_iff, neg_lt_neg_iff, neg_inj, eq_comm]

theorem rankKey_le {a b : Row} : rankKey a ≤ rankKey b ↔ b.score < a.score ∨ (b.score = a.score ∧ b.iou ≤ a.iou) := by
  rw [← not_lt, rankKey_lt]
  rcases lt_trichotomy a.score b.score with h | h | h
  · simp [h, h.ne, h.ne', not_lt.2 h.le]
  · simp [h]
  · simp [h, h.ne, h.ne', not_lt.2 h.le]

/-! ## Boundaries -/

/-- Assignment of distinct cells. -/
theorem assign_getElem? (iv : List (Nat × Rat)) (b : List Rat) (i : Nat) :
    (iv.map Prod.fst).Nodup →
    (assign b iv).length = b.length ∧
    ((∀ v, (i, v) ∈ iv → i < b.length → (assign b iv)[i]? = some v) ∧
     (i ∉ iv.map Prod.fst → (assign b iv)[i]? = b[i]?)) := by
  induction iv generalizing b with
  | nil => intro _; simp [assign]
  | cons x iv ih =>
    intro hn
    obtain ⟨j, w⟩ := x
    rw [List.map_cons, List.nodup_cons] at hn
    obtain ⟨h1, h2, h3⟩ := ih (b.set j w) hn.2
    have e : assign b ((j, w) :: iv) = assign (b.set j w) iv := rfl
    rw [e]
    refine ⟨by rw [h1, List.length_set], ?_, ?_⟩
    · intro v hv hi
      rcases List.mem_cons.1 hv with hv | hv
      · obtain ⟨rfl, rfl⟩ := Prod.mk.inj hv
        rw [h3 hn.1, List.getElem?_set_self hi]
      · exact h2 v hv (by rw [List.length_set]; exact hi)
    · intro hi
      rw [List.map_cons, List.mem_cons, not_or] at hi
      rw [h3 hi.2, List.getElem?_set_ne (fun h => hi.1 h.symm)]

theorem assign_length (iv : List (Nat × Rat)) (b : List Rat) : (assign b iv).length = b.length := by
  induction iv generalizing b with
  | nil => rfl
  | cons x iv ih =>
    show (assign (b.set x.1 x.2) iv).length = _
    rw [ih, List.length_set]

/-- The strict records of a sequence after a first value `m`, each with the record before. -/
def recs (m : Rat) : List (Nat × Rat) → List (Nat × Rat)
  | [] => []
  | x :: l => if m < x.2 then (x.1, m) :: recs x.2 l else recs m l

theorem mem_recs : ∀ (l : List (Nat × Rat)) (m : Rat) (i : Nat) (v : Rat), (i, v) ∈ recs m l →
    ∃ a x b, l = a ++ (i, x) :: b ∧ m < x ∧ (∀ y ∈ a, y.2 < x) ∧ ∀ t, v < t ↔ m < t ∧ ∀ y ∈ a, y.2 < t := by
  intro l
  induction l with
  | nil => intro m i v h; simp [recs] at h
  | cons y l ih =>
    intro m i v h
    unfold recs at h
    split at h
    · rename_i hm
      rcases List.mem_cons.1 h with h | h
      · obtain ⟨rfl, rfl⟩ := Prod.mk.inj h
        exact ⟨[], y.2, l, rfl, hm, by simp, by simp⟩
      · obtain ⟨a, x, b, rfl, h1, h2, h3⟩ := ih _ _ _ h
        refine ⟨y :: a, x, b, rfl, lt_trans hm h1, ?_, ?_⟩
        · intro z hz
          rcases List.mem_cons.1 hz with rfl | hz
          · exact h1
          · exact h2 z hz
        · intro t
          rw [h3, List.forall_mem_cons]
          constructor
          · rintro ⟨e1, e2⟩; exact ⟨lt_trans hm e1, e1, e2⟩
          · rintro ⟨_, e1, e2⟩; exact ⟨e1, e2⟩
    · rename_i hm
      obtain ⟨a, x, b, rfl, h1, h2, h3⟩ := ih _ _ _ h
      have hle : y.2 ≤ m := not_lt.1 hm
      refine ⟨y :: a, x, b, rfl, h1, ?_, ?_⟩
      · intro z hz
        rcases List.mem_cons.1 hz with rfl | hz
        · exact lt_of_le_of_lt hle h1
        · exact h2 z hz
      · intro t
        rw [h3, List.forall_mem_cons]
        constructor
        · rintro ⟨e1, e2⟩; exact ⟨e1, lt_of_le_of_lt hle e1, e2⟩
        · rintro ⟨e0, _, e2⟩; exact ⟨e0, e2⟩

theorem recs_has : ∀ (a : List (Nat × Rat)) (m : Rat) (i : Nat) (x : Rat) (b : List (Nat × Rat)), m < x →
    (∀ y ∈ a, y.2 < x) → ∃ v, (i, v) ∈ recs m (a ++ (i, x) :: b) := by
  intro a
  induction a with
  | nil =>
    intro m i x b hm _
    refine ⟨m, ?_⟩
    rw [List.nil_append, recs, if_pos hm]
    simp
  | cons y a ih =>
    intro m i x b hm ha
    rw [List.forall_mem_cons] at ha
    rw [List.cons_append, recs]
    split
    · obtain ⟨v, hv⟩ := ih y.2 i x b ha.1 ha.2
      exact ⟨v, List.mem_cons_of_mem _ hv⟩
    · exact ih m i x b hm ha.2

theorem recs_sublist : ∀ (l : List (Nat × Rat)) (m : Rat), ((recs m l).map Prod.fst).Sublist (l.map Prod.fst) := by
  intro l
  induction l with
  | nil => intro m; exact List.Sublist.refl _
  | cons y l ih =>
    intro m
    unfold recs
    split
    · exact (ih _).cons_cons _
    · exact (ih _).cons _

/-- Record mask after a value `m`. -/
def recMask (m : Rat) : List Rat → List Bool
  | [] => []
  | x :: xs => decide (m < x) :: recMask (max m x) xs

theorem isclose_self (x : Rat) : isclose x x = true := by
  unfold isclose
  rw [sub_self, abs_zero]
  have : (0 : Rat) ≤ |x| := abs_nonneg _
  simp only [decide_eq_true_eq]
  positivity

theorem recMask_eq (xs : List Rat) : ∀ m : Rat,
    List.zipWith (· && ·) (List.zipWith isclose (runningMax (some m) xs) xs)
      (List.zipWith (fun a b => decide (a > b)) (runningMax (some m) xs) (m :: runningMax (some m) xs))
      = recMask m xs := by
  induction xs with
  | nil => intro m; rfl
  | cons x xs ih =>
    intro m
    unfold runningMax recMask
    rw [List.zipWith_cons_cons, List.zipWith_cons_cons, List.zipWith_cons_cons, ih]
    congr 1
    by_cases h : m < x
    · rw [max_eq_right h.le, isclose_self]
      simp [h]
    · rw [max_eq_left (not_lt.1 h)]
      simp [h]

theorem recordMask_cons (x : Rat) (xs : List Rat) : recordMask (x :: xs) = true :: recMask x xs := by
  unfold recordMask
  have e : runningMax none (x :: xs) = x :: runningMax (some x) xs := rfl
  dsimp only
  rw [e, List.tail_cons, List.zipWith_cons_cons, List.zipWith_cons_cons, recMask_eq, isclose_self]
  rfl

theorem kept_recs (rest : List Nat) (f : Nat → Rat) : ∀ m : Rat,
    let kept := ((rest.zip (recMask m (rest.map f))).filter Prod.snd).map Prod.fst
    kept.zip (m :: kept.map f) = recs m (rest.map (fun i => (i, f i))) := by
  induction rest with
  | nil => intro m; rfl
  | cons i rest ih =>
    intro m
    dsimp only
    rw [List.map_cons, List.map_cons, recMask, List.zip_cons_cons, List.filter_cons, recs]
    by_cases h : m < f i
    · rw [if_pos (by simpa using h), if_pos h, max_eq_right h.le]
      have := ih (f i)
      dsimp only at this
      rw [List.map_cons, List.map_cons, List.zip_cons_cons, this]
    · rw [if_neg (by simpa using h), if_neg h, max_eq_left (not_lt.1 h)]
      exact ih m

/-- What the loop body assigns. -/
def boundaryPairs (rows : List Row) : List Nat → List (Nat × Rat)
  | [] => []
  | i :: rest => (i, 0) :: recs (iouAt rows i) (rest.map (fun j => (j, iouAt rows j)))

theorem boundaryStep_eq (rows : List Row) (b : List Rat) (k : List Int) :
    boundaryStep rows b k = assign b (boundaryPairs rows (gtIndices rows k)) := by
  unfold boundaryStep
  dsimp only
  split
  · rename_i h
    match hg : gtIndices rows k, h with
    | [], _ => rfl
    | [i], _ => rfl
  · rename_i h
    match hg : gtIndices rows k, h with
    | i :: rest, _ =>
      rw [List.map_cons, recordMask_cons, List.zip_cons_cons, List.filter_cons, if_pos rfl, List.map_cons,
        List.take_succ_cons, List.take_zero, List.tail_cons, List.map_cons, List.map_cons]
      have := kept_recs rest (iouAt rows) (iouAt rows i)
      dsimp only at this
      rw [this]
      rfl

theorem boundaryPairs_sublist (rows : List Row) (idx : List Nat) :
    ((boundaryPairs rows idx).map Prod.fst).Sublist idx := by
  cases idx with
  | nil => exact List.Sublist.refl _
  | cons i rest =>
    unfold boundaryPairs
    rw [List.map_cons]
    apply List.Sublist.cons_cons
    have := recs_sublist (rest.map (fun j => (j, iouAt rows j))) (iouAt rows i)
    rwa [List.map_map, show (Prod.fst ∘ fun j => (j, iouAt rows j)) = id from rfl, List.map_id] at this

theorem gtIndices_nodup (rows : List Row) (k : List Int) : (gtIndices rows k).Nodup :=
  List.nodup_range.filter _

theorem mem_gtIndices {rows : List Row} {k : List Int} {i : Nat} :
    i ∈ gtIndices rows k ↔ ∃ r, rows[i]? = some r ∧ gtKey r = k ∧ r.gl = r.pl := by
  unfold gtIndices
  rw [List.mem_filter, List.mem_range]
  constructor
  · rintro ⟨h1, h2⟩
    rw [List.getElem?_eq_getElem h1] at h2 ⊢
    simp only [Option.any_some, Bool.and_eq_true, decide_eq_true_eq] at h2
    exact ⟨_, rfl, h2⟩
  · rintro ⟨r, h1, h2, h3⟩
    refine ⟨(List.getElem?_eq_some_iff.1 h1).1, ?_⟩
    rw [h1]
    simp [h2, h3]

theorem boundaryStep_length (rows : List Row) (b : List Rat) (k : List Int) :
    (boundaryStep rows b k).length = b.length := by
  rw [boundaryStep_eq, assign_length]

theorem boundaryStep_other {rows : List Row} {b : List Rat} {k : List Int} {i : Nat}
    (h : i ∉ gtIndices rows k) : (boundaryStep rows b k)[i]? = b[i]? := by
  rw [boundaryStep_eq]
  refine (assign_getElem? _ b i ((gtIndices_nodup rows k).sublist (boundaryPairs_sublist rows _))).2.2 ?_
  intro hc
  exact h ((boundaryPairs_sublist rows _).subset hc)

theorem boundary_fold_length (rows : List Row) (ks : List (List Int)) (b : List Rat) :
    (ks.foldl (boundaryStep rows) b).length = b.length := by
  induction ks generalizing b with
  | nil => rfl
  | cons k ks ih => rw [List.foldl_cons, ih, boundaryStep_length]

theorem boundaries_length (rows : List Row) : (boundaries rows).length = rows.length := by
  unfold boundaries
  dsimp only
  rw [boundary_fold_length, List.length_replicate]

theorem boundary_fold_other {rows : List Row} {i : Nat} (ks : List (List Int)) (b : List Rat)
    (h : ∀ k ∈ ks, i ∉ gtIndices rows k) : (ks.foldl (boundaryStep rows) b)[i]? = b[i]? := by
  induction ks generalizing b with
  | nil => rfl
  | cons k ks ih =>
    rw [List.foldl_cons, ih _ (fun k' hk' => h k' (by simp [hk'])), boundaryStep_other (h k (by simp))]

/-- The boundary of a row is decided by the loop iteration of its own ground truth. -/
theorem boundaries_own {rows : List Row} {i : Nat} {r : Row} (hr : rows[i]? = some r) (hgt : 0 ≤ r.gt) :
    (boundaries rows)[i]? = (assign (List.replicate rows.length 2)
      (boundaryPairs rows (gtIndices rows (gtKey r))))[i]? := by
  unfold boundaries
  dsimp only
  have hmem : gtKey r ∈ ((rows.filter (fun r => decide (r.gt ≥ 0))).map gtKey).dedup.insertionSort (· ≤ ·) := by
    rw [List.mem_insertionSort, List.mem_dedup]
    exact List.mem_map_of_mem (List.mem_filter.2 ⟨List.mem_of_getElem? hr, by simpa using hgt⟩)
  have hnd : (((rows.filter (fun r => decide (r.gt ≥ 0))).map gtKey).dedup.insertionSort (· ≤ ·)).Nodup :=
    (List.perm_insertionSort _ _).nodup_iff.2 (List.nodup_dedup _)
  generalize ((rows.filter (fun r => decide (r.gt ≥ 0))).map gtKey).dedup.insertionSort (· ≤ ·) = ks at hmem hnd
  obtain ⟨k1, k2, rfl⟩ := List.append_of_mem hmem
  have hne : ∀ k, k ≠ gtKey r → i ∉ gtIndices rows k := by
    intro k hk hi
    obtain ⟨r', h1, h2, _⟩ := mem_gtIndices.1 hi
    rw [hr] at h1
    obtain rfl := Option.some.inj h1
    exact hk h2.symm
  rw [List.nodup_append, List.nodup_cons] at hnd
  obtain ⟨_, ⟨hn1, _⟩, hn2⟩ := hnd
  rw [List.foldl_append, List.foldl_cons, boundary_fold_other k2]
  · -- the earlier iterations do not change the cells of this ground truth
    rw [boundaryStep_eq]
    have hk1 : ∀ k ∈ k1, i ∉ gtIndices rows k := fun k hk => hne k (fun h => hn2 k hk _ (by simp) h)
    have hl := boundary_fold_length rows k1 (List.replicate rows.length 2)
    have hb := boundary_fold_other k1 (List.replicate rows.length 2) hk1
    generalize k1.foldl (boundaryStep rows) (List.replicate rows.length 2) = b at hl hb
    have hnp := (gtIndices_nodup rows (gtKey r)).sublist (boundaryPairs_sublist rows _)
    obtain ⟨_, a1, a2⟩ := assign_getElem? (boundaryPairs rows (gtIndices rows (gtKey r))) b i hnp
    obtain ⟨_, c1, c2⟩ := assign_getElem? (boundaryPairs rows (gtIndices rows (gtKey r))) (List.replicate rows.length 2) i hnp
    by_cases hin : i ∈ (boundaryPairs rows (gtIndices rows (gtKey r))).map Prod.fst
    · obtain ⟨⟨j, v⟩, hv, rfl⟩ := List.mem_map.1 hin
      have hi : j < rows.length := (List.getElem?_eq_some_iff.1 hr).1
      rw [a1 v hv (by rw [hl, List.length_replicate]; exact hi), c1 v hv (by rw [List.length_replicate]; exact hi)]
    · rw [a2 hin, c2 hin, hb]
  · intro k hk
    exact hne k (fun h => hn1 (h ▸ hk))

/-- A row that matches no ground truth keeps the default boundary. -/
theorem boundaries_default {rows : List Row} {i : Nat} {r : Row} (hr : rows[i]? = some r)
    (h : ¬ r.gl = r.pl) : (boundaries rows)[i]? = some 2 := by
  unfold boundaries
  dsimp only
  rw [boundary_fold_other]
  · rw [List.getElem?_replicate, if_pos (List.getElem?_eq_some_iff.1 hr).1]
  · intro k _ hi
    obtain ⟨r', h1, _, h3⟩ := mem_gtIndices.1 hi
    rw [hr] at h1
    obtain rfl := Option.some.inj h1
    exact h h3

/-- The boundary of a row that matches its ground truth: below `t` iff no earlier matching row of the
same ground truth reaches `t`, for all `t` up to the row's own IoU. -/
theorem boundaries_spec {rows : List Row} {i : Nat} {r : Row} {v : Rat} (hr : rows[i]? = some r)
    (hgt : 0 ≤ r.gt) (hm : r.gl = r.pl) (hv : (boundaries rows)[i]? = some v) {t : Rat} (h0 : 0 < t) (ht : t ≤ r.iou)
    (h2 : t ≤ 2) :
    v < t ↔ ∀ j < i, j ∈ gtIndices rows (gtKey r) → iouAt rows j < t := by
  rw [boundaries_own hr hgt] at hv
  have hnp := (gtIndices_nodup rows (gtKey r)).sublist (boundaryPairs_sublist rows _)
  obtain ⟨_, c1, c2⟩ := assign_getElem? (boundaryPairs rows (gtIndices rows (gtKey r))) (List.replicate rows.length 2) i hnp
  have hi : i < rows.length := (List.getElem?_eq_some_iff.1 hr).1
  have hlen : i < (List.replicate rows.length (2 : Rat)).length := by rw [List.length_replicate]; exact hi
  have hmem : i ∈ gtIndices rows (gtKey r) := mem_gtIndices.2 ⟨r, hr, rfl, hm⟩
  have hsorted : (gtIndices rows (gtKey r)).Pairwise (· < ·) := List.pairwise_lt_range.filter _
  have hiou : iouAt rows i = r.iou := by
    unfold iouAt
    rw [List.getElem?_map, hr]
    rfl
  generalize gtIndices rows (gtKey r) = idx at *
  cases idx with
  | nil => simp at hmem
  | cons i0 rest =>
    rw [List.pairwise_cons] at hsorted
    unfold boundaryPairs at c1 c2 hv
    by_cases hi0 : i = i0
    · subst hi0
      rw [c1 0 (by simp) hlen] at hv
      obtain rfl := Option.some.inj hv
      constructor
      · intro _ j hj hj'
        rcases List.mem_cons.1 hj' with rfl | hj'
        · omega
        · have := hsorted.1 j hj'
          omega
      · intro _; exact h0
    · have hrest : i ∈ rest := by
        rcases List.mem_cons.1 hmem with h | h
        · exact absurd h hi0
        · exact h
      obtain ⟨a, b, rfl⟩ := List.append_of_mem hrest
      have hs2 := hsorted.2
      rw [List.pairwise_append, List.pairwise_cons] at hs2
      -- the matching rows before row i
      have hbefore : (∀ j < i, j ∈ i0 :: (a ++ i :: b) → iouAt rows j < t) ↔
          iouAt rows i0 < t ∧ ∀ j ∈ a, iouAt rows j < t := by
        constructor
        · intro h
          exact ⟨h i0 (hsorted.1 i hrest) (by simp), fun j hj => h j (hs2.2.2 j hj i (by simp)) (by simp [hj])⟩
        · rintro ⟨h1, h2⟩ j hj hj'
          rcases List.mem_cons.1 hj' with rfl | hj'
          · exact h1
          · rcases List.mem_append.1 hj' with hj' | hj'
            · exact h2 j hj'
            · rcases List.mem_cons.1 hj' with rfl | hj'
              · omega
              · have := hs2.2.1.1 j hj'
                omega
      rw [hbefore]
      have hmapa : (a ++ i :: b).map (fun j => (j, iouAt rows j))
          = a.map (fun j => (j, iouAt rows j)) ++ (i, iouAt rows i) :: b.map (fun j => (j, iouAt rows j)) := by
        rw [List.map_append, List.map_cons]
      by_cases hrec : iouAt rows i0 < iouAt rows i ∧ ∀ y ∈ a.map (fun j => (j, iouAt rows j)), y.2 < iouAt rows i
      · obtain ⟨w, hw⟩ := recs_has _ (iouAt rows i0) i (iouAt rows i) (b.map (fun j => (j, iouAt rows j))) hrec.1 hrec.2
        rw [← hmapa] at hw
        rw [c1 w (List.mem_cons_of_mem _ hw) hlen] at hv
        obtain rfl := Option.some.inj hv
        obtain ⟨a', x', b', he, _, _, h3⟩ := mem_recs _ _ _ _ hw
        -- the split is the one we know, as the indices are distinct
        have ha : a' = a.map (fun j => (j, iouAt rows j)) := by
          rw [hmapa] at he
          have hnd : ((a ++ i :: b)).Nodup := hsorted.2.imp (fun h => ne_of_lt h)
          have := congrArg (List.map Prod.fst) he
          rw [List.map_append, List.map_append, List.map_cons, List.map_cons, List.map_map, List.map_map] at this
          have e1 : (Prod.fst ∘ fun j => (j, iouAt rows j)) = id := rfl
          rw [e1, List.map_id, List.map_id] at this
          have hi1 : i ∉ a := by
            rw [List.nodup_append] at hnd
            exact fun h => hnd.2.2 i h i (by simp) rfl
          have hi2 : i ∉ a'.map Prod.fst := by
            rw [this, List.nodup_append] at hnd
            exact fun h => hnd.2.2 i h i (by simp) rfl
          have hl : a.length = a'.length := by
            have i1 : (a ++ i :: b).idxOf i = a.length := by
              rw [List.idxOf_append_of_notMem hi1, List.idxOf_cons_self, Nat.add_zero]
            have i2 : (a'.map Prod.fst ++ i :: b'.map Prod.fst).idxOf i = a'.length := by
              rw [List.idxOf_append_of_notMem hi2, List.idxOf_cons_self, Nat.add_zero, List.length_map]
            rw [this] at i1
            exact i1.symm.trans i2
          exact ((List.append_inj he (by rw [List.length_map]; exact hl)).1).symm
        rw [h3, ha, List.forall_mem_map]
      · -- not a record: the boundary stays 2, and an earlier row has at least this IoU
        have hnot : i ∉ ((i0, (0 : Rat)) :: recs (iouAt rows i0) ((a ++ i :: b).map (fun j => (j, iouAt rows j)))).map Prod.fst := by
          intro hc
          rw [List.map_cons, List.mem_cons] at hc
          rcases hc with hc | hc
          · exact hi0 hc
          · obtain ⟨⟨j, w⟩, hw, hj⟩ := List.mem_map.1 hc
            obtain rfl : j = i := hj
            obtain ⟨a', x', b', he, g1, g2, _⟩ := mem_recs _ _ _ _ hw
            have hx : x' = iouAt rows j := by
              have : (j, x') ∈ (a ++ j :: b).map (fun j => (j, iouAt rows j)) := by rw [he]; simp
              obtain ⟨j', _, hj'⟩ := List.mem_map.1 this
              obtain ⟨rfl, rfl⟩ := Prod.mk.inj hj'
              rfl
            have ha : a'.map Prod.fst = a := by
              have hnd : ((a ++ j :: b)).Nodup := hsorted.2.imp (fun h => ne_of_lt h)
              have := congrArg (List.map Prod.fst) he
              rw [List.map_map] at this
              have e1 : (Prod.fst ∘ fun j => (j, iouAt rows j)) = id := rfl
              rw [e1, List.map_id, List.map_append, List.map_cons] at this
              have hi1 : j ∉ a := by
                rw [List.nodup_append] at hnd
                exact fun h => hnd.2.2 j h j (by simp) rfl
              have hi2 : j ∉ a'.map Prod.fst := by
                rw [this, List.nodup_append] at hnd
                exact fun h => hnd.2.2 j h j (by simp) rfl
              have i1 : (a ++ j :: b).idxOf j = a.length := by
                rw [List.idxOf_append_of_notMem hi1, List.idxOf_cons_self, Nat.add_zero]
              have i2 : (a'.map Prod.fst ++ j :: b'.map Prod.fst).idxOf j = a'.length := by
                rw [List.idxOf_append_of_notMem hi2, List.idxOf_cons_self, Nat.add_zero, List.length_map]
              rw [this] at i1
              have hl := i1.symm.trans i2
              exact ((List.append_inj this (by rw [List.length_map]; exact hl)).1).symm
            apply hrec
            refine ⟨hx ▸ g1, ?_⟩
            intro y hy
            obtain ⟨j', hj', rfl⟩ := List.mem_map.1 hy
            rw [← ha] at hj'
            obtain ⟨z, hz, rfl⟩ := List.mem_map.1 hj'
            have hz2 : z ∈ (a ++ j :: b).map (fun j => (j, iouAt rows j)) := by rw [he]; simp [hz]
            obtain ⟨j'', _, rfl⟩ := List.mem_map.1 hz2
            have := g2 _ hz
            rw [hx] at this
            exact this
        rw [c2 hnot, List.getElem?_replicate, if_pos hi] at hv
        obtain rfl := Option.some.inj hv
        rw [List.forall_mem_map] at hrec
        constructor
        · intro h; linarith
        · rintro ⟨h3, h4⟩
          exfalso
          apply hrec
          rw [hiou]
          exact ⟨lt_of_lt_of_le h3 ht, fun j hj => lt_of_lt_of_le (h4 j hj) ht⟩

end Verif.Detection
