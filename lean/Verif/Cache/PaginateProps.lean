import Verif.Cache.Paginate

/-! # Property C08: pagination -/

namespace Verif.Cache

variable {α : Type}

theorem mem_sortedUnique {l : List Int} {k : Int} : k ∈ sortedUnique l ↔ k ∈ l := by
  simp [sortedUnique, List.mem_mergeSort]

theorem sortedUnique_nodup (l : List Int) : (sortedUnique l).Nodup :=
  (List.mergeSort_perm _ _).nodup_iff.2 (List.nodup_dedup l)

theorem sortedUnique_strict (l : List Int) : (sortedUnique l).Pairwise (· < ·) := by
  have h1 : (sortedUnique l).Pairwise (fun a b => a ≤ b) :=
    (List.pairwise_mergeSort (le := fun a b : Int => decide (a ≤ b))
      (by intro a b c; simp; omega) (by intro a b; simp; omega) l.dedup).imp (by simp)
  have h2 : (sortedUnique l).Pairwise (fun a b => a ≠ b) := sortedUnique_nodup l
  exact (h1.and h2).imp (by intro a b ⟨h, h'⟩; omega)

theorem sortedUnique_length_le (l : List Int) : (sortedUnique l).length ≤ l.length := by
  unfold sortedUnique
  rw [List.length_mergeSort]
  exact (List.dedup_sublist l).length_le

theorem mem_drop_iff {u : List Int} (hu : u.Pairwise (· < ·)) {k : Int} (hk : k ∈ u) {i : Nat}
    (hi : i < u.length) : k ∈ u.drop i ↔ u.getD i 0 ≤ k := by
  rw [List.getD_eq_getElem?_getD, List.getElem?_eq_getElem hi, Option.getD_some]
  obtain ⟨j, hj, rfl⟩ := List.mem_iff_getElem.1 hk
  rw [List.pairwise_iff_getElem] at hu
  constructor
  · intro h
    obtain ⟨m, hm, he⟩ := List.mem_iff_getElem.1 h
    rw [List.getElem_drop] at he
    rw [← he]
    rcases Nat.eq_zero_or_pos m with rfl | hp
    · simp
    · have := hu i (i + m) hi (by simp at hm; omega) (by omega)
      omega
  · intro h
    have hij : i ≤ j := by
      by_contra hc
      have := hu j i hj hi (by omega)
      omega
    rw [List.mem_iff_getElem]
    refine ⟨j - i, by simp; omega, ?_⟩
    rw [List.getElem_drop]; congr 1; omega

theorem mem_take_iff {u : List Int} (hu : u.Pairwise (· < ·)) {k : Int} (hk : k ∈ u) {i : Nat}
    (hi : i < u.length) : k ∈ u.take i ↔ k < u.getD i 0 := by
  rw [List.getD_eq_getElem?_getD, List.getElem?_eq_getElem hi, Option.getD_some]
  obtain ⟨j, hj, rfl⟩ := List.mem_iff_getElem.1 hk
  rw [List.pairwise_iff_getElem] at hu
  constructor
  · intro h
    obtain ⟨m, hm, he⟩ := List.mem_iff_getElem.1 h
    rw [List.getElem_take] at he
    rw [← he]
    simp at hm
    exact hu m i (by omega) hi (by omega)
  · intro h
    have hij : j < i := by
      by_contra hc
      rcases Nat.lt_or_ge i j with h' | h'
      · have := hu i j hi hj h'; omega
      · have : i = j := by omega
        subst this; omega
    rw [List.mem_iff_getElem]
    exact ⟨j, by simp; omega, by rw [List.getElem_take]⟩

/-- membership in a window of a duplicate free list: below the upper bound and not below the lower -/
theorem mem_window_iff {u : List Int} (hu : u.Nodup) {k : Int} (lo hi : Nat) :
    k ∈ (u.take hi).drop lo ↔ k ∈ u.take hi ∧ k ∈ u.drop lo := by
  constructor
  · intro h
    refine ⟨List.mem_of_mem_drop h, ?_⟩
    rw [List.drop_take] at h
    exact List.mem_of_mem_take h
  · rintro ⟨h1, h2⟩
    have hs : u.take lo ++ u.drop lo = u := List.take_append_drop lo u
    have hnot : k ∉ u.take lo := by
      intro hc
      rw [← hs, List.nodup_append] at hu
      exact hu.2.2 k hc k h2 rfl
    have hs' : (u.take hi).take lo ++ (u.take hi).drop lo = u.take hi := List.take_append_drop _ _
    rw [← hs', List.mem_append] at h1
    rcases h1 with h1 | h1
    · exfalso; apply hnot
      rw [List.take_take] at h1
      exact List.mem_of_mem_take (i := hi) (by rw [List.take_take, Nat.min_comm]; rwa [Nat.min_comm] at h1 ⊢)
    · exact h1

theorem pageLoop_spec (key : α → Int) (offset limit : Nat) : ∀ (ts : List (List α)) (prev : Nat),
    (keyIndex key ts).Nodup →
    (pageLoop key offset limit ts prev).flatten
      = ts.flatten.filter (fun x => decide (key x ∈
          ((keyIndex key ts).take (offset + limit - prev)).drop (offset - prev)))
  | [], prev, _ => by simp [pageLoop]
  | t :: ts, prev, hnd => by
    have hidx : keyIndex key (t :: ts) = sortedUnique (t.map key) ++ keyIndex key ts := by
      simp [keyIndex]
    by_cases ht : t = []
    · subst ht
      have h0 : sortedUnique (([] : List α).map key) = [] := by simp [sortedUnique]
      rw [hidx, h0, List.nil_append] at hnd ⊢
      simp only [pageLoop, List.isEmpty_nil, if_true, List.flatten_cons, List.nil_append]
      exact pageLoop_spec key offset limit ts prev hnd
    · rw [hidx] at hnd ⊢
      generalize hu : sortedUnique (t.map key) = u at *
      have hstrict : u.Pairwise (· < ·) := hu ▸ sortedUnique_strict _
      have hkeys : ∀ x ∈ t, key x ∈ u := by
        intro x hx; rw [← hu, mem_sortedUnique]; exact List.mem_map_of_mem hx
      have hne : t.isEmpty = false := by simpa using ht
      rw [List.nodup_append] at hnd
      obtain ⟨hnu, hnts, hdisj⟩ := hnd
      have ih := pageLoop_spec key offset limit ts (prev + u.length) hnts
      -- rows of the other tables
      have hrest : ts.flatten.filter (fun x => decide (key x ∈
            ((u ++ keyIndex key ts).take (offset + limit - prev)).drop (offset - prev)))
          = ts.flatten.filter (fun x => decide (key x ∈
            ((keyIndex key ts).take (offset + limit - (prev + u.length))).drop
              (offset - (prev + u.length)))) := by
        apply List.filter_congr
        intro x hx
        have hxk : key x ∈ keyIndex key ts := by
          obtain ⟨t', ht', hx'⟩ := List.mem_flatten.1 hx
          unfold keyIndex
          rw [List.mem_flatMap]
          exact ⟨t', ht', mem_sortedUnique.2 (List.mem_map_of_mem hx')⟩
        have hxu : key x ∉ u := fun hc => hdisj _ hc _ hxk rfl
        simp only [decide_eq_decide]
        rw [List.take_append, List.drop_append]
        simp only [List.mem_append]
        have : key x ∉ (u.take (offset + limit - prev)).drop (offset - prev) := fun hc =>
          hxu (List.mem_of_mem_take (List.mem_of_mem_drop hc))
        simp only [this, false_or]
        rw [List.length_take]
        by_cases hc : offset + limit - prev ≤ u.length
        · have e1 : offset + limit - prev - u.length = 0 := by omega
          have e2 : offset + limit - (prev + u.length) = 0 := by omega
          rw [e1, e2]; simp
        · have e1 : offset + limit - prev - u.length = offset + limit - (prev + u.length) := by omega
          have e2 : offset - prev - min (offset + limit - prev) u.length
              = offset - (prev + u.length) := by omega
          rw [e1, e2]
      -- rows of this table
      have hthis : t.filter (fun x => decide (key x ∈
            ((u ++ keyIndex key ts).take (offset + limit - prev)).drop (offset - prev)))
          = t.filter (fun x => decide (key x ∈ u.take (offset + limit - prev) ∧
              key x ∈ u.drop (offset - prev))) := by
        apply List.filter_congr
        intro x hx
        have hxu := hkeys x hx
        have hxk : key x ∉ keyIndex key ts := fun hc => hdisj _ hxu _ hc rfl
        simp only [decide_eq_decide]
        rw [← mem_window_iff hnu, List.take_append, List.drop_append]
        simp only [List.mem_append]
        have : key x ∉ ((keyIndex key ts).take (offset + limit - prev - u.length)).drop
            (offset - prev - (u.take (offset + limit - prev)).length) := fun hc =>
          hxk (List.mem_of_mem_take (List.mem_of_mem_drop hc))
        simp only [this, or_false]
      rw [List.flatten_cons, List.filter_append, hthis, hrest, ← ih]
      simp only [pageLoop, hne, hu, Bool.false_eq_true, if_false]
      split
      · rename_i hle
        have : t.filter (fun x => decide (key x ∈ u.take (offset + limit - prev) ∧
              key x ∈ u.drop (offset - prev))) = [] := by
          rw [List.filter_eq_nil_iff]
          intro x _
          have : u.drop (offset - prev) = [] := List.drop_eq_nil_of_le (by omega)
          simp [this]
        rw [this, List.nil_append]
      · rename_i hnle
        split
        · rename_i hge
          have e0 : offset + limit - prev = 0 := by omega
          have : t.filter (fun x => decide (key x ∈ u.take (offset + limit - prev) ∧
              key x ∈ u.drop (offset - prev))) = [] := by
            rw [List.filter_eq_nil_iff]
            intro x _
            simp [e0]
          rw [this, ih]
          have e1 : offset + limit - (prev + u.length) = 0 := by omega
          simp [e1]
        · rename_i hnge
          simp only [List.flatten_cons]
          congr 1
          apply List.filter_congr
          intro x hx
          have hxu := hkeys x hx
          have hlow : (if prev < offset ∧ prev + u.length > offset then
              decide (key x ≥ u.getD (offset - prev) 0) else true)
              = decide (key x ∈ u.drop (offset - prev)) := by
            split
            · rename_i h
              rw [decide_eq_decide, mem_drop_iff hstrict hxu (by omega)]
            · have : offset - prev = 0 := by omega
              simp [this, hxu]
          have hup : (if prev < offset + limit ∧ prev + u.length > offset + limit then
              decide (key x < u.getD (offset + limit - prev) 0) else true)
              = decide (key x ∈ u.take (offset + limit - prev)) := by
            split
            · rename_i h
              rw [decide_eq_decide, mem_take_iff hstrict hxu (by omega)]
            · have : u.take (offset + limit - prev) = u := List.take_of_length_le (by omega)
              simp [this, hxu]
          rw [hlow, hup]
          simp [Bool.and_comm]

theorem keyIndex_length_le (key : α → Int) (tables : List (List α)) :
    (keyIndex key tables).length ≤ tables.flatten.length := by
  induction tables with
  | nil => simp [keyIndex]
  | cons t ts ih =>
    have : keyIndex key (t :: ts) = sortedUnique (t.map key) ++ keyIndex key ts := by
      simp [keyIndex]
    rw [this]
    have := sortedUnique_length_le (t.map key)
    simp at this ih ⊢
    omega

theorem mem_keyIndex {key : α → Int} {tables : List (List α)} {x : α}
    (hx : x ∈ tables.flatten) : key x ∈ keyIndex key tables := by
  obtain ⟨t, ht, hxt⟩ := List.mem_flatten.1 hx
  unfold keyIndex
  rw [List.mem_flatMap]
  exact ⟨t, ht, mem_sortedUnique.2 (List.mem_map_of_mem hxt)⟩

theorem filtered_length_le (m : α → Bool) (tables : List (List α)) :
    (tables.map (List.filter m)).flatten.length ≤ tables.flatten.length := by
  rw [← List.filter_flatten]
  exact List.length_filter_le _ _

/-! ## C08 -/

/-- **C08 (page content).** If no key occurs in two tables, a page consists of exactly the rows (in
order) whose key is among the `limit` index entries starting at `offset`. No limit (or limit 0)
means all the rest. -/
theorem C08_page_content (key : α → Int) (modifier : α → Bool) (limit : Option Nat) (offset : Nat)
    (tables : List (List α))
    (haligned : (keyIndex key (tables.map (List.filter modifier))).Nodup) :
    (paginate key modifier limit offset tables).flatten
      = (tables.flatten.filter modifier).filter (fun x => decide (key x ∈
          ((keyIndex key (tables.map (List.filter modifier))).drop offset).take
            (effLimit limit tables.flatten.length))) := by
  have hlen1 := keyIndex_length_le key (tables.map (List.filter modifier))
  have hlen2 := filtered_length_le modifier tables
  unfold paginate
  dsimp only
  split
  · rename_i h
    obtain ⟨rfl, h⟩ := h
    rw [List.drop_zero, List.take_of_length_le (by omega), ← List.filter_flatten]
    symm
    rw [List.filter_eq_self]
    intro x hx
    rw [List.filter_flatten] at hx
    simpa using mem_keyIndex hx
  · split
    · rename_i h
      rw [List.drop_eq_nil_of_le (by omega)]
      simp
    · rw [pageLoop_spec _ _ _ _ _ haligned, ← List.filter_flatten]
      apply List.filter_congr
      intro x _
      rw [decide_eq_decide, List.drop_take]
      have : offset + effLimit limit tables.flatten.length - 0 - (offset - 0)
          = effLimit limit tables.flatten.length := by omega
      rw [this, Nat.sub_zero]

/-- **C08 (partition).** Walking the pages `0, k, 2k, ...` visits every row exactly once, whatever
the layout: the concatenation of the first `n` pages is a permutation of the source once
`n * k` reaches the number of distinct keys, and a row whose key is the `i`-th index entry is on page
`j` iff `i / k = j`. -/
theorem C08_pages_partition (key : α → Int) (k n : Nat) (hk : 0 < k) (tables : List (List α))
    (haligned : (keyIndex key tables).Nodup) (hn : (keyIndex key tables).length ≤ n * k) :
    ((List.range n).flatMap
        (fun j => (paginate key (fun _ => true) (some k) (j * k) tables).flatten)).Perm
      tables.flatten ∧
    ∀ x ∈ tables.flatten, ∀ i, (keyIndex key tables)[i]? = some (key x) → ∀ j,
      (x ∈ (paginate key (fun _ => true) (some k) (j * k) tables).flatten ↔ i / k = j) := by
  have hft : tables.map (List.filter (fun _ => true)) = tables := by
    conv => rhs; rw [← List.map_id tables]
    exact List.map_congr_left (fun t _ => List.filter_true t)
  have hlim : effLimit (some k) tables.flatten.length = k := by
    cases k with
    | zero => omega
    | succ k => rfl
  have hpage : ∀ j, (paginate key (fun _ => true) (some k) (j * k) tables).flatten
      = tables.flatten.filter (fun x => decide (key x ∈
          ((keyIndex key tables).drop (j * k)).take k)) := by
    intro j
    have := C08_page_content key (fun _ => true) (some k) (j * k) tables (by rw [hft]; exact haligned)
    rw [hft, hlim, List.filter_true] at this
    exact this
  generalize hU : keyIndex key tables = U at *
  have hwin : ∀ i x, U[i]? = some x → ∀ j, (x ∈ (U.drop (j * k)).take k ↔ i / k = j) := by
    intro i x hi j
    obtain ⟨hlt, hx⟩ := List.getElem?_eq_some_iff.1 hi
    have hinj := List.nodup_iff_injective_getElem.1 haligned
    constructor
    · intro h
      obtain ⟨m, hm, he⟩ := List.mem_iff_getElem.1 h
      rw [List.getElem_take, List.getElem_drop] at he
      simp at hm
      have : (⟨j * k + m, by omega⟩ : Fin U.length) = ⟨i, hlt⟩ := hinj (by simp [he, hx])
      have : j * k + m = i := by simpa using this
      subst this
      rw [Nat.div_eq_of_lt_le]
      · omega
      · rw [Nat.succ_mul]; omega
    · rintro rfl
      have h1 := Nat.div_add_mod i k
      have h2 := Nat.mod_lt i hk
      have h3 : i / k * k + i % k = i := by rw [Nat.mul_comm]; exact h1
      rw [List.mem_iff_getElem]
      refine ⟨i % k, by simp; omega, ?_⟩
      rw [List.getElem_take, List.getElem_drop]
      simp [h3, hx]
  constructor
  · -- permutation, by counting
    classical
    rw [List.perm_iff_count]
    intro a
    by_cases ha : a ∈ tables.flatten
    · have hak : key a ∈ U := hU ▸ mem_keyIndex ha
      obtain ⟨i, hlt, hi⟩ := List.mem_iff_getElem.1 hak
      have hi' : U[i]? = some (key a) := by rw [List.getElem?_eq_getElem hlt, hi]
      have hcount : ∀ j, List.count a (paginate key (fun _ => true) (some k) (j * k) tables).flatten
          = if j = i / k then List.count a tables.flatten else 0 := by
        intro j
        rw [hpage]
        by_cases hj : j = i / k
        · rw [if_pos hj, List.count_filter]
          simpa using (hwin i _ hi' j).2 hj.symm
        · rw [if_neg hj]
          apply List.count_eq_zero_of_not_mem
          intro hc
          have := (List.mem_filter.1 hc).2
          simp only [decide_eq_true_eq] at this
          exact hj ((hwin i _ hi' j).1 this).symm
      rw [List.count_flatMap]
      have : (List.count a ∘ fun j => (paginate key (fun _ => true) (some k) (j * k) tables).flatten)
          = fun j => if j = i / k then List.count a tables.flatten else 0 := by
        funext j; exact hcount j
      rw [this]
      have hin : i / k < n := Nat.div_lt_of_lt_mul (by rw [Nat.mul_comm]; omega)
      have hsum : ∀ m c d, ((List.range m).map (fun j => if j = c then d else 0)).sum
          = if c < m then d else 0 := by
        intro m c d
        induction m with
        | zero => simp
        | succ m ih =>
          rw [List.range_succ, List.map_append, List.sum_append, ih]
          simp
          split <;> split <;> (try split) <;> omega
      rw [hsum, if_pos hin]
    · rw [List.count_eq_zero_of_not_mem ha, List.count_eq_zero_of_not_mem]
      intro hc
      obtain ⟨j, _, hj⟩ := List.mem_flatMap.1 hc
      rw [hpage] at hj
      exact ha (List.mem_filter.1 hj).1
  · intro x hx i hi j
    rw [hpage, List.mem_filter]
    simp only [hx, true_and, decide_eq_true_eq]
    exact hwin i _ hi j

/-- **C08 (page size).** A page of limit `k > 0` covers exactly `k` distinct keys, or all the
remaining ones. -/
theorem C08_page_size (key : α → Int) (k offset : Nat) (hk : 0 < k) (tables : List (List α))
    (haligned : (keyIndex key tables).Nodup) :
    (((paginate key (fun _ => true) (some k) offset tables).flatten.map key).dedup).length
      = min k ((keyIndex key tables).length - offset) := by
  have hft : tables.map (List.filter (fun _ => true)) = tables := by
    conv => rhs; rw [← List.map_id tables]
    exact List.map_congr_left (fun t _ => List.filter_true t)
  have hlim : effLimit (some k) tables.flatten.length = k := by
    cases k with
    | zero => omega
    | succ k => rfl
  have := C08_page_content key (fun _ => true) (some k) offset tables (by rw [hft]; exact haligned)
  rw [hft, hlim, List.filter_true] at this
  rw [this]
  have hp : ((tables.flatten.filter (fun x => decide (key x ∈
      ((keyIndex key tables).drop offset).take k))).map key).dedup.Perm
      (((keyIndex key tables).drop offset).take k) := by
    rw [List.perm_ext_iff_of_nodup (List.nodup_dedup _)
      (haligned.sublist ((List.take_sublist _ _).trans (List.drop_sublist _ _)))]
    intro a
    rw [List.mem_dedup, List.mem_map]
    constructor
    · rintro ⟨x, hx, rfl⟩
      simpa using (List.mem_filter.1 hx).2
    · intro ha
      have hidx : a ∈ keyIndex key tables := List.mem_of_mem_drop (List.mem_of_mem_take ha)
      unfold keyIndex at hidx
      obtain ⟨t, ht, hat⟩ := List.mem_flatMap.1 hidx
      obtain ⟨x, hx, rfl⟩ := List.mem_map.1 (mem_sortedUnique.1 hat)
      exact ⟨x, List.mem_filter.2 ⟨List.mem_flatten.2 ⟨t, ht, hx⟩, by simpa using ha⟩, rfl⟩
  rw [hp.length_eq]; simp

/-- Alignment holds for a layout with three tables, unordered rows and repeated keys. -/
example : (keyIndex id [[3, 1, 1], [], [5, 4, 5]]).Nodup := by
  simp [keyIndex, sortedUnique, List.dedup, List.pwFilter, List.mergeSort]

/-- `limit = 0` is treated as no limit: it returns everything from the first page. -/
theorem C08_limit_zero (key : α → Int) (tables : List (List α)) :
    (paginate key (fun _ => true) (some 0) 0 tables) = tables := by
  have hft : tables.map (List.filter (fun _ => true)) = tables := by
    conv => rhs; rw [← List.map_id tables]
    exact List.map_congr_left (fun t _ => List.filter_true t)
  simp only [paginate, effLimit, hft]
  simp

/-- The index used in the statements above is determined by what it lists: per table its keys, in
strictly ascending order. -/
theorem C08_index_unique (key : α → Int) (tables : List (List α)) (us : List (List Int))
    (h : List.Forall₂ (fun t u => u.Pairwise (· < ·) ∧ ∀ k, k ∈ u ↔ ∃ x ∈ t, key x = k) tables us) :
    keyIndex key tables = us.flatten := by
  induction h with
  | nil => rfl
  | @cons t u ts us htu _ ih =>
    have : sortedUnique (t.map key) = u := by
      have h1 := sortedUnique_strict (t.map key)
      have h2 : (sortedUnique (t.map key)).Perm u := by
        rw [List.perm_ext_iff_of_nodup (h1.imp (fun h => ne_of_lt h))
          (htu.1.imp (fun h => ne_of_lt h))]
        intro k
        rw [htu.2 k]
        simp [sortedUnique]
      exact List.Perm.eq_of_pairwise (fun a b _ _ h1 h2 => absurd h1 (not_lt.2 (le_of_lt h2))) h1 htu.1 h2
    simp only [keyIndex, List.flatMap_cons, List.flatten_cons] at ih ⊢
    rw [this]
    congr 1

/-- The keys of each table of the layout above, in ascending order. -/
example : keyIndex id [[3, 1, 1], [], [5, 4, 5]] = [1, 3, 4, 5] :=
  C08_index_unique id _ [[1, 3], [], [4, 5]] (by simp; omega)

end Verif.Cache
