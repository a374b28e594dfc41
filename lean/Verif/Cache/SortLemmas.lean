import Verif.Cache.Sort
import Verif.Cache.WriterLemmas

/-! Helper lemmas for the external sort. -/

namespace Verif.Cache

section
variable {α K : Type} [LinearOrder K]

theorem Entry.le_refl (a : Entry K) : a.le a = true := by simp [Entry.le]

theorem Entry.le_trans {a b c : Entry K} (h1 : a.le b = true) (h2 : b.le c = true) :
    a.le c = true := by
  simp only [Entry.le, decide_eq_true_eq] at *
  rcases h1 with h1 | ⟨h1, h1'⟩ <;> rcases h2 with h2 | ⟨h2, h2'⟩
  · exact Or.inl (h1.trans h2)
  · exact Or.inl (h2 ▸ h1)
  · exact Or.inl (h1 ▸ h2)
  · right; refine ⟨h1.trans h2, ?_⟩; omega

theorem Entry.le_total (a b : Entry K) : a.le b = true ∨ b.le a = true := by
  simp only [Entry.le, decide_eq_true_eq]
  rcases lt_trichotomy a.k b.k with h | h | h
  · exact Or.inl (Or.inl h)
  · by_cases h' : a.i < b.i ∨ (a.i = b.i ∧ a.r ≤ b.r)
    · exact Or.inl (Or.inr ⟨h, h'⟩)
    · right; right; exact ⟨h.symm, by omega⟩
  · exact Or.inr (Or.inl h)

theorem popMin_spec : ∀ {h : List (Entry K)},
    (popMin h = none → h = []) ∧
    ∀ {m rest}, popMin h = some (m, rest) → h.Perm (m :: rest) ∧ ∀ e ∈ h, m.le e = true
  | [] => by simp [popMin]
  | e :: es => by
    have ih := popMin_spec (h := es)
    constructor
    · intro h; simp only [popMin] at h; split at h <;> (try split at h) <;> simp at h
    · intro m rest h
      simp only [popMin] at h
      split at h
      · rename_i hn
        have := ih.1 hn
        subst this
        simp at h
        obtain ⟨rfl, rfl⟩ := h
        simp [Entry.le_refl]
      · rename_i m' rest' hs
        obtain ⟨hp, hle⟩ := ih.2 hs
        split at h
        · rename_i hem
          simp at h
          obtain ⟨rfl, rfl⟩ := h
          refine ⟨List.Perm.refl _, ?_⟩
          intro x hx
          simp only [List.mem_cons] at hx
          rcases hx with rfl | hx
          · exact Entry.le_refl _
          · exact Entry.le_trans hem (hle x hx)
        · rename_i hem
          simp at h
          obtain ⟨rfl, rfl⟩ := h
          refine ⟨(hp.cons e).trans (List.Perm.swap _ _ _), ?_⟩
          intro x hx
          simp only [List.mem_cons] at hx
          rcases hx with rfl | hx
          · rcases Entry.le_total x m' with h | h
            · exact absurd h hem
            · exact h
          · exact hle x hx

/-- rows still to be emitted from fragment `i` are `rem i` -/
structure HInv (key : α → K) (n : Nat) (rem : Nat → List α) (s : MState α K) : Prop where
  entry : ∀ e ∈ s.heap, e.i < n ∧ ∃ b x, s.batches e.i = some b ∧ b[e.r]? = some x ∧ e.k = key x ∧
      rem e.i = x :: b.drop (e.r + 1) ++ (s.iters e.i).flatten
  nodup : (s.heap.map Entry.i).Nodup
  empty : ∀ i < n, i ∉ s.heap.map Entry.i → rem i = []
  nonempty : ∀ i, [] ∉ s.iters i

@[simp] theorem upd_same {β : Type} (f : Nat → β) (i v) : upd f i v i = v := by simp [upd]
theorem upd_ne {β : Type} (f : Nat → β) {i j} (v) (h : j ≠ i) : upd f i v j = f j := by
  simp [upd, h]

theorem drop_eq_of_getElem? {b : List α} {r : Nat} {x : α} (h : b[r]? = some x) :
    b.drop r = x :: b.drop (r + 1) := by
  obtain ⟨hlt, rfl⟩ := List.getElem?_eq_some_iff.1 h
  exact List.drop_eq_getElem_cons hlt

theorem mergeStep_none {key : α → K} {s : MState α K} (h : mergeStep key s = none) :
    s.heap = [] := by
  unfold mergeStep at h
  split at h
  · rename_i hn; exact popMin_spec.1 hn
  · dsimp only at h; split at h <;> simp at h

theorem mergeStep_some {key : α → K} {n : Nat} {rem : Nat → List α} {s s' : MState α K}
    {out : List α} (hi : HInv key n rem s) (h : mergeStep key s = some (out, s')) :
    ∃ i x xs, i < n ∧ rem i = x :: xs ∧ out = [x] ∧ HInv key n (upd rem i xs) s' ∧
      ∀ j < n, ∀ y ys, rem j = y :: ys → key x < key y ∨ (key x = key y ∧ i ≤ j) := by
  unfold mergeStep at h
  split at h
  · simp at h
  rename_i e heap hpop
  obtain ⟨hperm, hmin⟩ := popMin_spec.2 hpop
  have hmem : e ∈ s.heap := hperm.mem_iff.2 (by simp)
  obtain ⟨hin, b, x, hb, hx, hk, hrem⟩ := hi.entry e hmem
  have hnd : ((e :: heap).map Entry.i).Nodup := (hperm.map Entry.i).nodup_iff.1 hi.nodup
  rw [List.map_cons, List.nodup_cons] at hnd
  have hother : ∀ e' ∈ heap, e'.i ≠ e.i := by
    intro e' he' hc
    exact hnd.1 (hc ▸ List.mem_map_of_mem he')
  have hheapmem : ∀ e' ∈ heap, e' ∈ s.heap := fun e' he' => hperm.mem_iff.2 (by simp [he'])
  have hout : (((s.batches e.i).getD []).drop e.r).take 1 = [x] := by
    rw [hb]; simp [drop_eq_of_getElem? hx]
  have hminimal : ∀ j < n, ∀ y ys, rem j = y :: ys →
      key x < key y ∨ (key x = key y ∧ e.i ≤ j) := by
    intro j hj y ys hy
    by_cases hjm : j ∈ s.heap.map Entry.i
    · obtain ⟨e', he', rfl⟩ := List.mem_map.1 hjm
      obtain ⟨_, b', x', _, _, hk', hrem'⟩ := hi.entry e' he'
      have hle := hmin e' he'
      rw [hrem'] at hy
      simp at hy
      obtain ⟨rfl, _⟩ := hy
      simp only [Entry.le, decide_eq_true_eq, hk, hk'] at hle
      rcases hle with h | ⟨h, h'⟩
      · exact Or.inl h
      · exact Or.inr ⟨h, by omega⟩
    · rw [hi.empty j hj hjm] at hy; simp at hy
  have hemptyOther : ∀ i < n, i ≠ e.i → i ∉ heap.map Entry.i → rem i = [] := by
    intro i hi' hne hni
    apply hi.empty i hi'
    intro hc
    have := (hperm.map Entry.i).mem_iff.1 hc
    simp at this
    rcases this with h | h
    · exact hne h
    · exact hni (by simpa using h)
  dsimp only at h
  rw [hout] at h
  split at h
  · rename_i x' hx'
    rw [hb] at hx'
    simp at hx'
    simp at h
    obtain ⟨rfl, rfl⟩ := h
    refine ⟨e.i, x, b.drop (e.r + 1) ++ (s.iters e.i).flatten, hin, by simpa using hrem, rfl, ?_,
      hminimal⟩
    refine ⟨?_, ?_, ?_, hi.nonempty⟩
    · intro e' he'
      simp only [List.mem_cons] at he'
      rcases he' with rfl | he'
      · refine ⟨hin, b, x', hb, hx', rfl, ?_⟩
        simp [drop_eq_of_getElem? hx']
      · obtain ⟨h1, b', y, h2, h3, h4, h5⟩ := hi.entry e' (hheapmem e' he')
        exact ⟨h1, b', y, h2, h3, h4, by rw [upd_ne _ _ (hother e' he')]; exact h5⟩
    · simp only [List.map_cons, List.nodup_cons]; exact hnd
    · intro i hi' hni
      simp only [List.map_cons, List.mem_cons, not_or] at hni
      rw [upd_ne _ _ hni.1]
      exact hemptyOther i hi' hni.1 hni.2
  · rename_i hnone
    rw [hb] at hnone
    simp at hnone
    have hdrop : b.drop (e.r + 1) = [] := List.drop_eq_nil_of_le hnone
    simp at h
    obtain ⟨rfl, rfl⟩ := h
    refine ⟨e.i, x, (s.iters e.i).flatten, hin, ?_, rfl, ?_, hminimal⟩
    · rw [hrem, hdrop]; simp
    cases hit : s.iters e.i with
    | nil =>
      refine ⟨?_, ?_, ?_, ?_⟩
      · simp only [List.head?_nil, pushHead]
        intro e' he'
        obtain ⟨h1, b', y, h2, h3, h4, h5⟩ := hi.entry e' (hheapmem e' he')
        have hne := hother e' he'
        exact ⟨h1, b', y, by rw [upd_ne _ _ hne]; exact h2, h3, h4, by
          rw [upd_ne _ _ hne, upd_ne _ _ hne]; exact h5⟩
      · simpa [pushHead] using hnd.2
      · intro i hi' hni
        simp only [List.head?_nil, pushHead] at hni
        by_cases hie : i = e.i
        · subst hie; simp
        · rw [upd_ne _ _ hie]; exact hemptyOther i hi' hie hni
      · intro i
        by_cases hie : i = e.i
        · subst hie; simp
        · dsimp only; rw [upd_ne _ _ hie]; exact hi.nonempty i
    | cons b2 rest =>
      have hb2 : b2 ≠ [] := by
        intro hc
        exact hi.nonempty e.i (by rw [hit, hc]; simp)
      obtain ⟨y, ys, rfl⟩ := List.exists_cons_of_ne_nil hb2
      refine ⟨?_, ?_, ?_, ?_⟩
      · simp only [List.head?_cons, pushHead]
        intro e' he'
        simp only [List.mem_cons] at he'
        rcases he' with rfl | he'
        · exact ⟨hin, y :: ys, y, by simp, by simp, rfl, by simp⟩
        · obtain ⟨h1, b', y, h2, h3, h4, h5⟩ := hi.entry e' (hheapmem e' he')
          have hne := hother e' he'
          exact ⟨h1, b', y, by rw [upd_ne _ _ hne]; exact h2, h3, h4, by
            rw [upd_ne _ _ hne, upd_ne _ _ hne]; exact h5⟩
      · simp only [List.head?_cons, pushHead, List.map_cons, List.nodup_cons]; exact hnd
      · intro i hi' hni
        simp only [List.head?_cons, pushHead, List.map_cons, List.mem_cons, not_or] at hni
        rw [upd_ne _ _ hni.1]
        exact hemptyOther i hi' hni.1 hni.2
      · intro i
        by_cases hie : i = e.i
        · subst hie
          have := hi.nonempty e.i
          rw [hit] at this
          simp at this
          simpa using this
        · dsimp only; rw [upd_ne _ _ hie]; exact hi.nonempty i

/-! ### all remaining rows -/

/-- all rows not yet emitted -/
def remAll (n : Nat) (rem : Nat → List α) : List α := (List.range n).flatMap rem

theorem range_split {i n : Nat} (h : i < n) :
    List.range n = List.range i ++ i :: List.range' (i + 1) (n - 1 - i) := by
  rw [List.range_eq_range', List.range_eq_range']
  have : n = i + (1 + (n - 1 - i)) := by omega
  conv => lhs; rw [this, ← List.range'_append_1, ← List.range'_append_1]
  simp [List.range'_one]

theorem remAll_split {n i : Nat} (h : i < n) (rem : Nat → List α) :
    ∃ pre post, remAll n rem = pre ++ rem i ++ post ∧ pre = remAll i rem ∧
      ∀ v, remAll n (upd rem i v) = pre ++ v ++ post := by
  refine ⟨remAll i rem, (List.range' (i + 1) (n - 1 - i)).flatMap rem, ?_, rfl, ?_⟩
  · unfold remAll; rw [range_split h]; simp
  · intro v
    have e1 : (List.range i).flatMap (upd rem i v) = (List.range i).flatMap rem := by
      apply List.flatMap_congr
      intro j hj
      rw [upd_ne]; simp at hj; omega
    have e2 : (List.range' (i + 1) (n - 1 - i)).flatMap (upd rem i v)
        = (List.range' (i + 1) (n - 1 - i)).flatMap rem := by
      apply List.flatMap_congr
      intro j hj
      rw [upd_ne]; simp [List.mem_range'] at hj; omega
    unfold remAll; rw [range_split h]; simp [e1, e2]

theorem mem_remAll {n : Nat} {rem : Nat → List α} {x : α} :
    x ∈ remAll n rem ↔ ∃ i < n, x ∈ rem i := by
  simp [remAll]

theorem remAll_nil {n : Nat} {rem : Nat → List α} (h : ∀ i < n, rem i = []) :
    remAll n rem = [] := by
  simp [remAll]; intro i hi; exact h i hi

theorem hinv_heap_nil {key : α → K} {n : Nat} {rem : Nat → List α} {s : MState α K}
    (hi : HInv key n rem s) (h : s.heap = []) : remAll n rem = [] :=
  remAll_nil (fun i hlt => hi.empty i hlt (by simp [h]))

/-- no row is lost or invented, whatever the order inside the fragments -/
theorem mergeLoop_perm {key : α → K} {n : Nat} : ∀ (fuel : Nat) {rem : Nat → List α}
    {s : MState α K}, HInv key n rem s → (remAll n rem).length ≤ fuel →
    (mergeLoop key fuel s).2.heap = [] ∧ (mergeLoop key fuel s).1.Perm (remAll n rem)
  | 0, rem, s, hi, hf => by
    have hnil : remAll n rem = [] := by simpa using hf
    constructor
    · by_contra hne
      obtain ⟨e, es, he⟩ := List.exists_cons_of_ne_nil hne
      obtain ⟨hin, b, x, _, _, _, hrem⟩ := hi.entry e (by simp [mergeLoop] at he; simp [he])
      have : x ∈ remAll n rem := mem_remAll.2 ⟨e.i, hin, by rw [hrem]; simp⟩
      simp [hnil] at this
    · simp [mergeLoop, hnil]
  | fuel + 1, rem, s, hi, hf => by
    unfold mergeLoop
    split
    · rename_i hn
      have hh := mergeStep_none hn
      exact ⟨hh, by simp [hinv_heap_nil hi hh]⟩
    · rename_i out s' hs
      obtain ⟨i, x, xs, hlt, hrem, rfl, hi', _⟩ := mergeStep_some hi hs
      obtain ⟨pre, post, h1, _, h2⟩ := remAll_split hlt rem
      have h2' := h2 xs
      have hlen : (remAll n (upd rem i xs)).length ≤ fuel := by
        rw [h1, hrem] at hf; rw [h2']; simp at hf ⊢; omega
      obtain ⟨ih1, ih2⟩ := mergeLoop_perm fuel hi' hlen
      refine ⟨ih1, ?_⟩
      dsimp only
      rw [h1, hrem]
      rw [h2'] at ih2
      refine (ih2.cons x).trans ?_
      simp only [List.append_assoc, List.cons_append]
      exact List.perm_middle.symm

/-- one fragment: rows come out in the order of the fragment -/
theorem mergeLoop_single {key : α → K} : ∀ (fuel : Nat) {rem : Nat → List α}
    {s : MState α K}, HInv key 1 rem s → (rem 0).length ≤ fuel →
    (mergeLoop key fuel s).1 = rem 0
  | 0, rem, s, hi, hf => by
    have : rem 0 = [] := by simpa using hf
    simp [mergeLoop, this]
  | fuel + 1, rem, s, hi, hf => by
    unfold mergeLoop
    split
    · rename_i hn
      have hh := mergeStep_none hn
      have := hinv_heap_nil hi hh
      simp [remAll] at this
      simp [this]
    · rename_i out s' hs
      obtain ⟨i, x, xs, hlt, hrem, rfl, hi', _⟩ := mergeStep_some hi hs
      have : i = 0 := by omega
      subst this
      have hlen : (upd rem 0 xs 0).length ≤ fuel := by
        rw [hrem] at hf; simp at hf ⊢; omega
      have := mergeLoop_single fuel hi' hlen
      simp only [this, hrem]; simp

/-- sorted fragments: the output is sorted and stable -/
theorem mergeLoop_sorted {key : α → K} {n : Nat} : ∀ (fuel : Nat) {rem : Nat → List α}
    {s : MState α K}, HInv key n rem s → (remAll n rem).length ≤ fuel →
    (∀ i < n, SortedBy key (rem i)) →
    SortedBy key (mergeLoop key fuel s).1 ∧ StableOf key (remAll n rem) (mergeLoop key fuel s).1
  | 0, rem, s, hi, hf, _ => by
    have hnil : remAll n rem = [] := by simpa using hf
    simp [mergeLoop, hnil, SortedBy, StableOf]
  | fuel + 1, rem, s, hi, hf, hsort => by
    unfold mergeLoop
    split
    · rename_i hn
      have hh := mergeStep_none hn
      simp [hinv_heap_nil hi hh, SortedBy, StableOf]
    · rename_i out s' hs
      obtain ⟨i, x, xs, hlt, hrem, rfl, hi', hmin⟩ := mergeStep_some hi hs
      obtain ⟨pre, post, h1, hpre, h2⟩ := remAll_split hlt rem
      have h2' := h2 xs
      have hlen : (remAll n (upd rem i xs)).length ≤ fuel := by
        rw [h1, hrem] at hf; rw [h2']; simp at hf ⊢; omega
      have hsort' : ∀ j < n, SortedBy key (upd rem i xs j) := by
        intro j hj
        by_cases hji : j = i
        · subst hji
          have := hsort j hj
          rw [hrem] at this
          rw [upd_same]; exact (List.pairwise_cons.1 this).2
        · rw [upd_ne _ _ hji]; exact hsort j hj
      obtain ⟨ih1, ih2⟩ := mergeLoop_sorted fuel hi' hlen hsort'
      obtain ⟨_, ihp⟩ := mergeLoop_perm fuel hi' hlen
      -- every row of a fragment is at least its head
      have hhead : ∀ j < n, ∀ y ∈ rem j, key x < key y ∨ (key x = key y ∧ i ≤ j) := by
        intro j hj y hy
        cases hr : rem j with
        | nil => rw [hr] at hy; simp at hy
        | cons z zs =>
          have hm := hmin j hj z zs hr
          rw [hr] at hy
          have hso := hsort j hj
          rw [hr] at hso
          have hz := (List.pairwise_cons.1 hso).1
          simp only [List.mem_cons] at hy
          rcases hy with rfl | hy
          · exact hm
          · rcases hm with h | ⟨h, h'⟩
            · exact Or.inl (lt_of_lt_of_le h (hz y hy))
            · rcases lt_or_eq_of_le (hz y hy) with h3 | h3
              · exact Or.inl (h ▸ h3)
              · exact Or.inr ⟨h.trans h3, h'⟩
      refine ⟨?_, ?_⟩
      · unfold SortedBy
        simp only [List.cons_append, List.nil_append]
        rw [List.pairwise_cons]
        refine ⟨?_, ih1⟩
        intro y hy
        have hy' := (ihp.mem_iff).1 hy
        rw [h2'] at hy'
        have : y ∈ remAll n rem := by
          rw [h1, hrem]; simp at hy' ⊢; tauto
        obtain ⟨j, hj, hyj⟩ := mem_remAll.1 this
        rcases hhead j hj y hyj with h | h
        · exact h.le
        · exact h.1.le
      · intro k
        have := ih2 k
        dsimp only
        rw [List.filter_append, this, h2', h1, hrem]
        by_cases hk : key x = k
        · have hp : pre.filter (fun x => decide (key x = k)) = [] := by
            rw [List.filter_eq_nil_iff]
            intro y hy
            rw [hpre] at hy
            obtain ⟨j, hj, hyj⟩ := mem_remAll.1 hy
            have := hhead j (by omega) y hyj
            simp only [decide_eq_true_eq]
            intro hc
            rcases this with h | ⟨_, h⟩
            · rw [hk, hc] at h; exact lt_irrefl _ h
            · omega
          simp [List.filter_append, hp, hk]
        · simp [List.filter_append, hk]

/-! ### initial state -/

theorem pushHead_foldl_mem (key : α → K) (its : Nat → List (List α)) (l : List Nat) :
    ∀ (h0 : List (Entry K)) (e : Entry K),
      e ∈ l.foldl (fun h i => pushHead key i (its i).head? h) h0 ↔
        e ∈ h0 ∨ ∃ i ∈ l, ∃ x xs, (its i).head? = some (x :: xs) ∧ e = ⟨key x, i, 0⟩ := by
  induction l with
  | nil => simp
  | cons a l ih =>
    intro h0 e
    simp only [List.foldl_cons]
    rw [ih]
    have : e ∈ pushHead key a (its a).head? h0 ↔
        e ∈ h0 ∨ ∃ x xs, (its a).head? = some (x :: xs) ∧ e = ⟨key x, a, 0⟩ := by
      unfold pushHead
      split
      · rename_i x xs hx
        simp only [List.mem_cons, hx, Option.some.injEq, List.cons.injEq]
        constructor
        · rintro (h | h)
          · exact Or.inr ⟨x, xs, ⟨rfl, rfl⟩, h⟩
          · exact Or.inl h
        · rintro (h | ⟨x', xs', ⟨h1, h2⟩, h⟩)
          · exact Or.inr h
          · rw [← h1] at h; exact Or.inl h
      · rename_i hx
        constructor
        · exact Or.inl
        · rintro (h | ⟨x, xs, h, _⟩)
          · exact h
          · exact absurd h (hx x xs)
    rw [this]
    simp only [List.mem_cons, exists_eq_or_imp]
    rw [or_assoc]

theorem pushHead_foldl_nodup (key : α → K) (its : Nat → List (List α)) (l : List Nat) :
    ∀ (h0 : List (Entry K)), (h0.map Entry.i).Nodup → l.Nodup → (∀ i ∈ l, i ∉ h0.map Entry.i) →
      ((l.foldl (fun h i => pushHead key i (its i).head? h) h0).map Entry.i).Nodup := by
  induction l with
  | nil => intro h0 h _ _; simpa using h
  | cons a l ih =>
    intro h0 h hl hd
    rw [List.nodup_cons] at hl
    simp only [List.foldl_cons]
    apply ih
    · unfold pushHead; split
      · simp only [List.map_cons, List.nodup_cons]; exact ⟨hd a (by simp), h⟩
      · exact h
    · exact hl.2
    · intro i hi
      unfold pushHead; split
      · simp only [List.map_cons, List.mem_cons, not_or]
        refine ⟨?_, hd i (by simp [hi])⟩
        rintro rfl; exact hl.1 hi
      · exact hd i (by simp [hi])

theorem hinv_init (key : α → K) (frags : List (List (List α))) (hne : ∀ f ∈ frags, [] ∉ f) :
    HInv key frags.length (fun i => (frags.getD i []).flatten) (mergeInit key frags) := by
  have hne' : ∀ i, [] ∉ frags.getD i [] := by
    intro i
    by_cases h : i < frags.length
    · simp only [List.getD_eq_getElem?_getD, List.getElem?_eq_getElem h, Option.getD_some]
      exact hne _ (List.getElem_mem h)
    · simp [List.getElem?_eq_none (Nat.le_of_not_lt h)]
  refine ⟨?_, ?_, ?_, ?_⟩
  · intro e he
    simp only [mergeInit] at he
    rw [pushHead_foldl_mem] at he
    rcases he with he | ⟨i, hi, x, xs, hx, rfl⟩
    · simp at he
    · simp at hi
      refine ⟨hi, x :: xs, x, ?_, by simp, rfl, ?_⟩
      · simpa [mergeInit] using hx
      · simp only [mergeInit]
        obtain ⟨rest, hrest⟩ : ∃ rest, frags.getD i [] = (x :: xs) :: rest := by
          cases h : frags.getD i [] with
          | nil => rw [h] at hx; simp at hx
          | cons b r => rw [h] at hx; simp at hx; exact ⟨r, by rw [hx]⟩
        simp only [hrest]; simp
  · simp only [mergeInit]
    apply pushHead_foldl_nodup
    · simp
    · exact List.nodup_range
    · simp
  · intro i hi hni
    cases h : frags.getD i [] with
    | nil => rfl
    | cons b r =>
      exfalso; apply hni
      have hb : b ≠ [] := by
        intro hc; exact hne' i (by rw [h, hc]; simp)
      obtain ⟨x, xs, rfl⟩ := List.exists_cons_of_ne_nil hb
      refine List.mem_map.2 ⟨⟨key x, i, 0⟩, ?_, rfl⟩
      simp only [mergeInit]
      rw [pushHead_foldl_mem]
      right
      refine ⟨i, by simpa using hi, x, xs, ?_, rfl⟩
      rw [h]; rfl
  · intro i
    have := hne' i
    simp only [mergeInit]
    intro hc
    exact this (List.mem_of_mem_tail hc)

theorem remAll_frags (frags : List (List (List α))) :
    remAll frags.length (fun i => (frags.getD i []).flatten) = frags.flatten.flatten := by
  unfold remAll
  rw [List.flatten_flatten]
  have : (List.range frags.length).map (fun i => (frags.getD i []).flatten)
      = frags.map List.flatten := by
    apply List.ext_getElem
    · simp
    · intro i h1 h2
      simp at h1
      simp [List.getElem?_eq_getElem h1]
  rw [List.flatMap_def, this]

theorem mergeRows_perm (key : α → K) (frags : List (List (List α))) (hne : ∀ f ∈ frags, [] ∉ f) :
    (mergeLoop key frags.flatten.flatten.length (mergeInit key frags)).2.heap = [] ∧
    (mergeRows key frags).Perm frags.flatten.flatten := by
  have := mergeLoop_perm frags.flatten.flatten.length (hinv_init key frags hne)
    (by rw [remAll_frags])
  rw [remAll_frags] at this
  exact this

theorem mergeRows_sorted (key : α → K) (frags : List (List (List α)))
    (hne : ∀ f ∈ frags, [] ∉ f) (hs : ∀ f ∈ frags, SortedBy key f.flatten) :
    SortedBy key (mergeRows key frags) ∧
      StableOf key frags.flatten.flatten (mergeRows key frags) := by
  have := mergeLoop_sorted frags.flatten.flatten.length (hinv_init key frags hne)
    (by rw [remAll_frags]) (by
      intro i hi
      simp only [List.getD_eq_getElem?_getD, List.getElem?_eq_getElem hi, Option.getD_some]
      exact hs _ (List.getElem_mem hi))
  rw [remAll_frags] at this
  exact this

theorem mergeRows_single (key : α → K) (frag : List (List α)) (hne : [] ∉ frag) :
    mergeRows key [frag] = frag.flatten := by
  have := mergeLoop_single (key := key) [frag].flatten.flatten.length
    (hinv_init key [frag] (by simpa using hne)) (by simp)
  exact this

theorem StableOf.perm {key : α → K} {l out : List α} (h : StableOf key l out) : out.Perm l := by
  classical
  rw [List.perm_iff_count]
  intro a
  have := congrArg (List.count a) (h (key a))
  rwa [List.count_filter (by simp), List.count_filter (by simp)] at this

/-- sorted + stable determines the output -/
theorem sorted_stable_unique {key : α → K} : ∀ {l1 l2 : List α}, SortedBy key l1 → SortedBy key l2 →
    (∀ k, l1.filter (fun x => decide (key x = k)) = l2.filter (fun x => decide (key x = k))) →
    l1 = l2
  | [], l2, _, _, h => by
    cases l2 with
    | nil => rfl
    | cons b l2 => have := h (key b); simp at this
  | a :: l1, l2, h1, h2, h => by
    cases l2 with
    | nil => have := h (key a); simp at this
    | cons b l2 =>
      have ha : a ∈ b :: l2 := by
        have : a ∈ (a :: l1).filter (fun x => decide (key x = key a)) := by simp
        rw [h] at this
        exact List.mem_of_mem_filter this
      have hb : b ∈ a :: l1 := by
        have : b ∈ (b :: l2).filter (fun x => decide (key x = key b)) := by simp
        rw [← h] at this
        exact List.mem_of_mem_filter this
      have hab : key a ≤ key b := by
        simp only [List.mem_cons] at hb
        rcases hb with rfl | hb
        · exact le_rfl
        · exact (List.pairwise_cons.1 h1).1 b hb
      have hba : key b ≤ key a := by
        simp only [List.mem_cons] at ha
        rcases ha with rfl | ha
        · exact le_rfl
        · exact (List.pairwise_cons.1 h2).1 a ha
      have hk : key a = key b := le_antisymm hab hba
      have heq : a = b := by
        have := h (key a)
        simp [hk] at this
        exact this.1
      subst heq
      congr 1
      apply sorted_stable_unique (List.pairwise_cons.1 h1).2 (List.pairwise_cons.1 h2).2
      intro k
      have := h k
      by_cases hk : key a = k
      · simpa [hk] using this
      · simpa [hk] using this

theorem sortBy_sorted (key : α → K) (t : List α) : SortedBy key (sortBy key t) := by
  have := List.pairwise_mergeSort (le := fun a b : α => decide (key a ≤ key b))
    (by intro a b c; simp; exact le_trans) (by intro a b; simp; exact le_total _ _) t
  exact this.imp (by simp)

theorem sortBy_stable (key : α → K) (t : List α) : StableOf key t (sortBy key t) := by
  intro k
  have hperm : (sortBy key t).Perm t := List.mergeSort_perm _ _
  have hsub : (t.filter (fun x => decide (key x = k))).Sublist (sortBy key t) := by
    apply List.sublist_mergeSort (le := fun a b : α => decide (key a ≤ key b))
    · intro a b c; simp; exact le_trans
    · intro a b; simp; exact le_total _ _
    · rw [List.pairwise_iff_forall_sublist]
      intro a b hab
      have ha : a ∈ t.filter (fun x => decide (key x = k)) := hab.subset (by simp)
      have hb : b ∈ t.filter (fun x => decide (key x = k)) := hab.subset (by simp)
      simp at ha hb
      simp [ha.2, hb.2]
    · exact List.filter_sublist
  have hsub2 := hsub.filter (fun x => decide (key x = k))
  rw [List.filter_filter] at hsub2
  simp only [Bool.and_self] at hsub2
  exact (hsub2.eq_of_length (hperm.filter _).length_eq.symm).symm

theorem stable_flatten_map {key : α → K} {f : List α → List α} (tables : List (List α))
    (h : ∀ t, StableOf key t (f t)) : StableOf key tables.flatten (tables.map f).flatten := by
  intro k
  induction tables with
  | nil => rfl
  | cons t ts ih => simp only [List.map_cons, List.flatten_cons, List.filter_append, ih, h t k]

theorem chunksOf_isBatching (n : Nat) : IsBatching (chunksOf (α := α) n) := by
  intro t
  fun_induction chunksOf n t with
  | case1 => simp
  | case2 x xs ih =>
    simp only [List.flatten_cons, ih.1, List.mem_cons, not_or]
    exact ⟨by simp, by simp, ih.2⟩

theorem written_sinkCalls (rows : List α) : written (sinkCalls rows) = rows := by
  simp [written, sinkCalls, WOp.payload, List.flatMap_map]

end
end Verif.Cache
