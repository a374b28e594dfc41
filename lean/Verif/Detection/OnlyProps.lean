import Verif.Detection.OnlyRows

/-!
# C122: a filtered evaluator counts what an evaluator of the selected annotations counts
-/

namespace Verif.Detection

open Verif.Cache (sortBy SortedBy StableOf sorted_stable_unique sortBy_sorted sortBy_stable)

/-! ## Specification -/

/-- `x'` is detection `x` with only the annotations that `q` selects: `σ` and `τ` give the old positions of its ground truths and predictions. A
prediction keeps its selected labels with their scores, and is left out if none is selected. -/
structure Selects (q : Asks) (x x' : Det × (Nat → Nat → Rat)) (σ τ : Nat → Nat) : Prop where
  gtUp : ∀ i j, i < j → j < x'.1.gts.length → σ i < σ j
  gts : ∀ i, i < x'.1.gts.length → x.1.gts[σ i]? = x'.1.gts[i]?
  gtAll : ∀ (g : Nat) (b : Ann), x.1.gts[g]? = some b →
    ((∃ i < x'.1.gts.length, σ i = g) ↔ q.gt x.1.uid (some b.uid) (some (b.labels.headD "")) = true)
  pdUp : ∀ i j, i < j → j < x'.1.pds.length → τ i < τ j
  pds : ∀ (j : Nat) (a' : Ann), x'.1.pds[j]? = some a' → ∃ a, x.1.pds[τ j]? = some a ∧
    a'.labels.zip a'.scores = (a.labels.zip a.scores).filter (fun z => q.pd x.1.uid (some a.uid) (some z.1) z.2)
  pdAll : ∀ (p : Nat) (a : Ann), x.1.pds[p]? = some a →
    ((∃ j < x'.1.pds.length, τ j = p) ↔ ∃ z ∈ a.labels.zip a.scores, q.pd x.1.uid (some a.uid) (some z.1) z.2 = true)
  iou : ∀ j i, j < x'.1.pds.length → i < x'.1.gts.length → x'.2 j i = x.2 (τ j) (σ i)

/-- `H'` is dataset `H` with only the datums and the annotations that `q` selects. -/
structure Picks (q : Asks) (H H' : History) (δ : Nat → Nat) (σ τ : Nat → Nat → Nat) : Prop where
  up : ∀ i j, i < j → j < H'.length → δ i < δ j
  all : ∀ (k : Nat) (x : Det × (Nat → Nat → Rat)), H[k]? = some x → ((∃ i < H'.length, δ i = k) ↔ q.datum x.1.uid = true)
  det : ∀ (i : Nat) (x' : Det × (Nat → Nat → Rat)), H'[i]? = some x' → ∃ x, H[δ i]? = some x ∧ Selects q x x' (σ i) (τ i)

/-! ## What a row says -/

/-- The row is about prediction `p` and its label `v`. -/
structure PdSays (L : List String) (x : Det × (Nat → Nat → Rat)) (k p0 : Nat) (f : FRow) (p : Nat) (a : Ann) (v : String) (c : Rat) : Prop where
  pds : x.1.pds[p]? = some a
  zip : (v, c) ∈ a.labels.zip a.scores
  datum : f.row.datum = k
  pd : f.row.pd = ((p0 + p : Nat) : Int)
  pl : f.row.pl = (L.idxOf v : Int)
  score : f.row.score = c
  duid : f.datumUid = x.1.uid
  uid : f.pdUid = some a.uid
  label : f.pdLabel = some v

/-- The row is about ground truth `g`. -/
structure GtSays (L : List String) (x : Det × (Nat → Nat → Rat)) (k g0 : Nat) (f : FRow) (g : Nat) (b : Ann) : Prop where
  gts : x.1.gts[g]? = some b
  datum : f.row.datum = k
  gt : f.row.gt = ((g0 + g : Nat) : Int)
  gl : f.row.gl = (L.idxOf (b.labels.headD "") : Int)
  duid : f.datumUid = x.1.uid
  uid : f.gtUid = some b.uid
  label : f.gtLabel = some (b.labels.headD "")

theorem head_mem {b : Ann} (h : b.labels.length = 1) {w : String} : w ∈ b.labels ↔ w = b.labels.headD "" := by
  obtain ⟨w', hw'⟩ := List.length_eq_one_iff.1 h
  rw [hw']
  simp

section
variable {L : List String} {x : Det × (Nat → Nat → Rat)} {k g0 p0 : Nat} {f : FRow}

theorem IsRow.pdSays (h : IsRow L x.1 x.2 k g0 p0 f) (h0 : 0 ≤ f.row.pd) : ∃ p a v c, PdSays L x k p0 f p a v c := by
  rcases h with ⟨_, _, _, _, rfl⟩ | ⟨p, a, v, c, hp, hz, _, rfl⟩ | ⟨_, _, p, a, _, v, c, _, hp, _, _, hz, rfl⟩
  · exact absurd h0 (by simp [gtRow])
  · exact ⟨p, a, v, c, hp, hz, rfl, rfl, rfl, rfl, rfl, rfl, rfl⟩
  · exact ⟨p, a, v, c, hp, hz, rfl, rfl, rfl, rfl, rfl, rfl, rfl⟩

theorem IsRow.gtSays (h1 : ∀ b ∈ x.1.gts, b.labels.length = 1) (h : IsRow L x.1 x.2 k g0 p0 f) (h0 : 0 ≤ f.row.gt) : ∃ g b, GtSays L x k g0 f g b := by
  rcases h with ⟨g, b, hg, _, rfl⟩ | ⟨_, _, _, _, _, _, _, rfl⟩ | ⟨g, b, _, _, w, _, _, hg, _, _, hw, _, rfl⟩
  · exact ⟨g, b, hg, rfl, rfl, rfl, rfl, rfl, rfl⟩
  · exact absurd h0 (by simp [pdRow])
  · have := (head_mem (h1 b (List.mem_of_getElem? hg))).1 hw
    subst this
    exact ⟨g, b, hg, rfl, rfl, rfl, rfl, rfl, rfl⟩

theorem IsRow.pairSays (h1 : ∀ b ∈ x.1.gts, b.labels.length = 1) (h : IsRow L x.1 x.2 k g0 p0 f) (hg : 0 ≤ f.row.gt) (hp : 0 ≤ f.row.pd) :
    ∃ g b p a v c, GtSays L x k g0 f g b ∧ PdSays L x k p0 f p a v c ∧ EPSILON ≤ x.2 p g ∧ f.row.iou = x.2 p g := by
  rcases h with ⟨_, _, _, _, rfl⟩ | ⟨_, _, _, _, _, _, _, rfl⟩ | ⟨g, b, p, a, w, v, c, hb, ha, he, hw, hz, rfl⟩
  · exact absurd hp (by simp [gtRow])
  · exact absurd hg (by simp [pdRow])
  · have := (head_mem (h1 b (List.mem_of_getElem? hb))).1 hw
    subst this
    exact ⟨g, b, p, a, v, c, ⟨hb, rfl, rfl, rfl, rfl, rfl, rfl⟩, ⟨ha, hz, rfl, rfl, rfl, rfl, rfl, rfl, rfl⟩, he, rfl⟩

theorem says_pair (h1 : ∀ b ∈ x.1.gts, b.labels.length = 1) {g p : Nat} {a b : Ann} {v : String} {c : Rat} (hb : x.1.gts[g]? = some b)
    (ha : x.1.pds[p]? = some a) (hz : (v, c) ∈ a.labels.zip a.scores) (he : EPSILON ≤ x.2 p g) :
    ∃ f, IsRow L x.1 x.2 k g0 p0 f ∧ GtSays L x k g0 f g b ∧ PdSays L x k p0 f p a v c ∧ f.row.iou = x.2 p g :=
  ⟨_, Or.inr (Or.inr ⟨g, b, p, a, b.labels.headD "", v, c, hb, ha, he, (head_mem (h1 b (List.mem_of_getElem? hb))).2 rfl, hz, rfl⟩),
    ⟨hb, rfl, rfl, rfl, rfl, rfl, rfl⟩, ⟨ha, hz, rfl, rfl, rfl, rfl, rfl, rfl, rfl⟩, rfl⟩

theorem says_pd (h1 : ∀ b ∈ x.1.gts, b.labels.length = 1) {p : Nat} {a : Ann} {v : String} {c : Rat} (ha : x.1.pds[p]? = some a)
    (hz : (v, c) ∈ a.labels.zip a.scores) : ∃ f, IsRow L x.1 x.2 k g0 p0 f ∧ PdSays L x k p0 f p a v c := by
  by_cases hal : PdAlone x.1 x.2 p
  · exact ⟨_, Or.inr (Or.inl ⟨p, a, v, c, ha, hz, hal, rfl⟩), ha, hz, rfl, rfl, rfl, rfl, rfl, rfl, rfl⟩
  · unfold PdAlone at hal
    push Not at hal
    obtain ⟨g, hg, he⟩ := hal
    obtain ⟨f, h1, _, h2, _⟩ := says_pair (L := L) (k := k) (g0 := g0) (p0 := p0) h1 (List.getElem?_eq_getElem hg) ha hz he
    exact ⟨f, h1, h2⟩

theorem says_gt (h1 : ∀ b ∈ x.1.gts, b.labels.length = 1) (h2 : ∀ a ∈ x.1.pds, a.labels ≠ [] ∧ a.scores.length = a.labels.length)
    {g : Nat} {b : Ann} (hb : x.1.gts[g]? = some b) : ∃ f, IsRow L x.1 x.2 k g0 p0 f ∧ GtSays L x k g0 f g b := by
  by_cases hal : GtAlone x.1 x.2 g
  · exact ⟨_, Or.inl ⟨g, b, hb, hal, rfl⟩, hb, rfl, rfl, rfl, rfl, rfl, rfl⟩
  · unfold GtAlone at hal
    push Not at hal
    obtain ⟨p, hp, he⟩ := hal
    obtain ⟨e1, e2⟩ := h2 _ (List.getElem_mem hp)
    obtain ⟨z, hz⟩ : ∃ z, z ∈ (x.1.pds[p]).labels.zip (x.1.pds[p]).scores := by
      apply List.exists_mem_of_ne_nil
      intro hn
      have : ((x.1.pds[p]).labels.zip (x.1.pds[p]).scores).length = 0 := by rw [hn]; rfl
      rw [List.length_zip, e2, min_self, List.length_eq_zero_iff] at this
      exact e1 this
    obtain ⟨f, h1, h2, _, _⟩ := says_pair (L := L) (k := k) (g0 := g0) (p0 := p0) (v := z.1) (c := z.2) h1 hb (List.getElem?_eq_getElem hp) hz he
    exact ⟨f, h1, h2⟩

end

/-! ## Rows of the loader -/

theorem isRow_mem {calls : List History} {k : Nat} {x : Det × (Nat → Nat → Rat)} (hk : calls.flatten[k]? = some x) {f : FRow}
    (hf : IsRow (Loader.init.addAll calls).labels x.1 x.2 k (gtOffset calls.flatten k) (pdOffset calls.flatten k) f) :
    f ∈ (Loader.init.addAll calls).rows.flatten := by
  obtain ⟨_, _, hrows⟩ := C34_rows calls
  obtain ⟨payload, hp, hm⟩ := hrows k x hk
  exact List.mem_flatten.2 ⟨payload, List.mem_of_getElem? hp, (hm f).2 hf⟩

theorem offset_step {H : History} (n : Det × (Nat → Nat → Rat) → Nat) {k k' : Nat} (h : k < k') {x : Det × (Nat → Nat → Rat)} (hx : H[k]? = some x) :
    ((H.take k).map n).sum + n x ≤ ((H.take k').map n).sum := by
  have h1 : ((H.take (k + 1)).map n).sum = ((H.take k).map n).sum + n x := by
    rw [List.take_add_one, hx]
    simp
  rw [← h1]
  apply List.Sublist.sum_le_sum _ (fun _ _ => Nat.zero_le _)
  apply List.Sublist.map
  exact (List.take_sublist_take_left (by omega))

theorem offset_same {H : History} (n : Det × (Nat → Nat → Rat) → Nat) {k k' i i' : Nat} {x x' : Det × (Nat → Nat → Rat)} (hx : H[k]? = some x)
    (hx' : H[k']? = some x') (hi : i < n x) (hi' : i' < n x') (h : ((H.take k).map n).sum + i = ((H.take k').map n).sum + i') : k = k' ∧ i = i' := by
  rcases Nat.lt_trichotomy k k' with h1 | h1 | h1
  · have := offset_step n h1 hx
    omega
  · subst h1
    exact ⟨rfl, by omega⟩
  · have := offset_step n h1 hx'
    omega

theorem loader_lone {calls : List History} {r : Row} (hr : r ∈ loaderRows calls) (hg : 0 ≤ r.gt) (hp : 0 ≤ r.pd) : 0 < r.iou := by
  obtain ⟨f, hf, rfl⟩ := List.mem_map.1 hr
  obtain ⟨k, x, _, hrow⟩ := loader_row hf
  rcases hrow with ⟨_, _, _, _, rfl⟩ | ⟨_, _, _, _, _, _, _, rfl⟩ | ⟨_, _, _, _, _, _, _, _, _, he, _, _, rfl⟩
  · exact absurd hp (by simp [gtRow])
  · exact absurd hg (by simp [pdRow])
  · exact lt_of_lt_of_le eps_pos he

theorem form_of_mem {calls : List History} {r : Row} (hr : r ∈ loaderRows calls) : RowForm r := by
  obtain ⟨f, hf, rfl⟩ := List.mem_map.1 hr
  exact loader_form hf

theorem loader_up (calls : List History) : (loaderRows calls).Pairwise Up := by
  have hone : ∀ a ∈ loaderRows calls, ∀ b ∈ loaderRows calls, (0 ≤ a.gt → 0 ≤ b.gt → a.gt ≤ b.gt) → Up a b := by
    intro a ha b hb h h0 hk hp
    by_cases ga : 0 ≤ a.gt
    · by_cases gb : 0 ≤ b.gt
      · exact h ga gb
      · have h1 := loader_lone ha ga h0
        have h2 := ((form_of_mem hb).gt (by omega)).2.2
        unfold rankKey at hk
        simp only [List.cons.injEq, neg_inj, and_true] at hk
        rw [hk.2, h2] at h1
        exact absurd h1 (lt_irrefl _)
    · have h1 := ((form_of_mem ha).gt (by omega)).1
      by_cases gb : 0 ≤ b.gt
      · omega
      · have h2 := ((form_of_mem hb).gt (by omega)).1
        omega
  have hmem : ∀ p ∈ loaderPieces calls, ∀ r ∈ p, r ∈ loaderRows calls := by
    intro p hp r hr
    rw [← loaderPieces_flatten]
    exact List.mem_flatten.2 ⟨p, hp, hr⟩
  rw [← loaderPieces_flatten, List.pairwise_flatten]
  constructor
  · intro p hp
    have hp' := hp
    rw [loaderPieces_eq, List.mem_map] at hp'
    obtain ⟨k, hk, he⟩ := hp'
    rw [List.mem_range] at hk
    simp only [List.getElem?_eq_getElem hk] at he
    rw [List.pairwise_iff_forall_sublist]
    intro a b hab
    refine hone a (hmem p hp a (hab.subset (by simp))) b (hmem p hp b (hab.subset (by simp))) ?_
    intro ga gb
    have hasc := rowsOf_asc (Loader.init.addAll calls).labels calls.flatten[k].1 calls.flatten[k].2 k (gtOffset calls.flatten k) (pdOffset calls.flatten k)
    have hasc' : (p.filter (fun r => decide (0 ≤ r.gt))).Pairwise (fun a b => a.gt ≤ b.gt) := by
      rw [← he, List.filter_map, List.pairwise_map]
      exact hasc
    rw [List.pairwise_iff_forall_sublist] at hasc'
    apply hasc'
    have := hab.filter (fun r => decide (0 ≤ r.gt))
    simpa [ga, gb] using this
  · refine (loaderPieces_asc calls).imp ?_
    intro p p' hlt a ha b hb _ _ hk
    have h1 := hlt a ha b hb
    have h2 := (pdKey_iff.1 hk).1
    omega

/-! ## Rows of the filtered cache -/

theorem filterTables_flatten {d g p : Option Expr} {tables : List (List FRow)} (hf : ∀ r ∈ tables.flatten, RowForm r.row)
    (hg : AboutGts g tables.flatten) (hp : AboutPds p tables.flatten) :
    (filterTables d g p tables).flatten = (tables.flatten.filter (valueOf d)).filterMap (stepRow g p) := by
  have e : filterTables d g p tables = tables.map (fun t => (t.filter (valueOf d)).filterMap (stepRow g p)) := by
    unfold filterTables
    apply List.map_congr_left
    intro t ht
    rw [readTable_value]
    have hs : ∀ r ∈ t.filter (valueOf d), r ∈ tables.flatten := fun r hr => List.mem_flatten.2 ⟨t, ht, (List.mem_filter.1 hr).1⟩
    exact filterTable_rows (fun r hr => hf r (hs r hr)) (hg.sub hs) (hp.sub hs)
  rw [e]
  clear e hf hg hp
  induction tables with
  | nil => rfl
  | cons a l ih => rw [List.map_cons, List.flatten_cons, List.flatten_cons, List.filter_append, List.filterMap_append, ih]

/-- The stored rows come in an order in which equally ranked rows of a prediction have ascending ground truths. -/
theorem tables_up {calls : List History} {tables : List (List FRow)} (h : StoredSorted (Loader.init.addAll calls).rows tables) :
    (tables.flatten.map FRow.row).Pairwise Up := by
  obtain ⟨groups, hg, rfl⟩ := h
  have hall : (groups.flatten.flatten.map FRow.row).Pairwise Up := by
    rw [hg, flatten_nonempty]
    exact loader_up calls
  have hd := pairwise_nonempty_flatten (R := fun x y => x.row.datum < y.row.datum) hg (loader_ascending calls)
  rw [List.map_flatten, List.map_map, List.pairwise_flatten]
  constructor
  · intro t ht
    obtain ⟨g, hgm, rfl⟩ := List.mem_map.1 ht
    rw [Function.comp_apply, sortBy_row]
    apply sorted_up
    refine hall.sublist (List.Sublist.map _ ?_)
    obtain ⟨u, v, rfl⟩ := List.append_of_mem hgm
    rw [List.flatten_append, List.flatten_cons, List.flatten_append, List.flatten_append]
    exact (List.sublist_append_left _ _).trans (List.sublist_append_right _ _)
  · rw [List.pairwise_map]
    refine hd.imp ?_
    intro a b hab x hx y hy _ _ hk
    obtain ⟨fx, hfx, rfl⟩ := List.mem_map.1 hx
    obtain ⟨fy, hfy, rfl⟩ := List.mem_map.1 hy
    have h1 := hab fx ((List.mergeSort_perm _ _).mem_iff.1 hfx) fy ((List.mergeSort_perm _ _).mem_iff.1 hfy)
    have h2 := (pdKey_iff.1 hk).1
    omega

/-- What is left of a row. -/
structure Comes (r0 r : Row) : Prop where
  datum : r.datum = r0.datum
  gt : 0 ≤ r.gt → r.gt = r0.gt ∧ r.gl = r0.gl
  pd : 0 ≤ r.pd → r.pd = r0.pd ∧ r.pl = r0.pl ∧ r.score = r0.score
  iou : 0 ≤ r.gt → 0 ≤ r.pd → r.iou = r0.iou
  form : RowForm r

theorem clear_comes {r : FRow} (h : RowForm r.row) {vg vp : Bool} (hk : (vg = true ∧ 0 ≤ r.row.gt) ∨ (vp = true ∧ 0 ≤ r.row.pd)) :
    Comes r.row (clear vg vp r).row := by
  refine ⟨rfl, ?_, ?_, ?_, clear_form h hk⟩
  · intro h0
    cases vg
    · simp [clear] at h0
    · exact ⟨rfl, rfl⟩
  · intro h0
    cases vp
    · simp [clear] at h0
    · exact ⟨rfl, rfl, rfl⟩
  · intro h0 h1
    cases vg
    · simp [clear] at h0
    · cases vp
      · simp [clear] at h1
      · rfl

/-- The rows that `filter` writes. -/
def filteredRows (q : Asks) (tables : List (List FRow)) : List Row := (filterTables q.d q.g q.p tables).flatten.map FRow.row

section
variable {calls : List History} {tables : List (List FRow)} (hs : StoredSorted (Loader.init.addAll calls).rows tables)
  (hD : DistinctLabels calls.flatten) (q : Asks)

include hs hD

theorem filteredRows_eq : filteredRows q tables = ((tables.flatten.filter (valueOf q.d)).filterMap (stepRow q.g q.p)).map FRow.row := by
  have hm : ∀ r ∈ tables.flatten, r ∈ (Loader.init.addAll calls).rows.flatten := fun r hr => (stored_mem_iff hs.stored r).1 hr
  unfold filteredRows
  rw [filterTables_flatten (fun r hr => loader_form (hm r hr))]
  · refine ⟨fun r hr r' hr' h0 he => ?_, fun _ _ _ _ => rfl⟩
    obtain ⟨e1, e2, e3⟩ := loader_gtTexts (hm r hr) (hm r' hr') h0 he
    show q.gt _ _ _ = q.gt _ _ _
    rw [e1, e2, e3]
  · refine ⟨fun r hr r' hr' h0 he => ?_, fun _ _ _ _ => rfl⟩
    obtain ⟨e1, e2, e3, e4⟩ := loader_pdTexts hD (hm r hr) (hm r' hr') h0 he
    show q.pd _ _ _ _ = q.pd _ _ _ _
    rw [e1, e2, e3, e4]

/-- A row of the filtered cache comes from a row of the loader, and its sides are selected. -/
theorem filteredRows_from {r : Row} (hr : r ∈ filteredRows q tables) : ∃ f ∈ (Loader.init.addAll calls).rows.flatten, Comes f.row r ∧
    q.datum f.datumUid = true ∧ (0 ≤ r.gt → q.gt f.datumUid f.gtUid f.gtLabel = true) ∧ (0 ≤ r.pd → q.pd f.datumUid f.pdUid f.pdLabel f.row.score = true) := by
  rw [filteredRows_eq hs hD q, List.mem_map] at hr
  obtain ⟨f', hf', rfl⟩ := hr
  obtain ⟨f, hf, hstep⟩ := List.mem_filterMap.1 hf'
  obtain ⟨hft, hd⟩ := List.mem_filter.1 hf
  have hfl := (stored_mem_iff hs.stored f).1 hft
  unfold stepRow at hstep
  dsimp only at hstep
  split at hstep
  · rename_i hv
    rw [Option.some.injEq] at hstep
    subst hstep
    refine ⟨f, hfl, clear_comes (loader_form hfl) ?_, hd, ?_, ?_⟩
    · rw [Bool.or_eq_true, Bool.and_eq_true, Bool.and_eq_true, decide_eq_true_eq, decide_eq_true_eq] at hv
      rcases hv with h | h
      · exact Or.inl ⟨by simp [h], h.1⟩
      · exact Or.inr ⟨by simp [h], h.1⟩
    · intro h0
      by_contra hn
      have : valueOf q.g f = false := by simpa [Asks.g, valueOf] using hn
      simp [this, clear] at h0
    · intro h0
      by_contra hn
      have : valueOf q.p f = false := by simpa [Asks.p, valueOf] using hn
      simp [this, clear] at h0
  · cases hstep

/-- A selected side of a row of the loader is in the filtered cache. -/
theorem filteredRows_has {f : FRow} (hf : f ∈ (Loader.init.addAll calls).rows.flatten) (hd : q.datum f.datumUid = true) :
    (0 ≤ f.row.gt → q.gt f.datumUid f.gtUid f.gtLabel = true → ∃ r ∈ filteredRows q tables, Comes f.row r ∧ r.gt = f.row.gt ∧ r.gl = f.row.gl) ∧
    (0 ≤ f.row.pd → q.pd f.datumUid f.pdUid f.pdLabel f.row.score = true →
      ∃ r ∈ filteredRows q tables, Comes f.row r ∧ pdKey r = pdKey f.row ∧ r.score = f.row.score) ∧
    (0 ≤ f.row.gt → 0 ≤ f.row.pd → q.gt f.datumUid f.gtUid f.gtLabel = true → q.pd f.datumUid f.pdUid f.pdLabel f.row.score = true →
      f.row ∈ filteredRows q tables) := by
  have hft := (stored_mem_iff hs.stored f).2 hf
  have hmem : ∀ f', stepRow q.g q.p f = some f' → f'.row ∈ filteredRows q tables := by
    intro f' hf'
    rw [filteredRows_eq hs hD q]
    exact List.mem_map_of_mem (List.mem_filterMap.2 ⟨f, List.mem_filter.2 ⟨hft, hd⟩, hf'⟩)
  refine ⟨?_, ?_, ?_⟩
  · intro h0 hv
    have hv' : valueOf q.g f = true := hv
    have hstep : stepRow q.g q.p f = some (clear true (decide (0 ≤ f.row.pd) && valueOf q.p f) f) := by
      unfold stepRow
      simp [h0, hv']
    exact ⟨_, hmem _ hstep, clear_comes (loader_form hf) (Or.inl ⟨rfl, h0⟩), rfl, rfl⟩
  · intro h0 hv
    have hv' : valueOf q.p f = true := hv
    have hstep : stepRow q.g q.p f = some (clear (decide (0 ≤ f.row.gt) && valueOf q.g f) true f) := by
      unfold stepRow
      simp [h0, hv']
    exact ⟨_, hmem _ hstep, clear_comes (loader_form hf) (Or.inr ⟨rfl, h0⟩), rfl, rfl⟩
  · intro h0 h1 hv hw
    have hv' : valueOf q.g f = true := hv
    have hw' : valueOf q.p f = true := hw
    have hstep : stepRow q.g q.p f = some (clear true true f) := by
      unfold stepRow
      simp [h0, h1, hv', hw']
    exact hmem _ hstep

end

theorem tidy_comes {calls : List History} (hH : HistoryOk calls.flatten) (hD : DistinctLabels calls.flatten) (hS : SizesOk (Loader.init.addAll calls))
    {rows : List Row} (hc : ∀ r ∈ rows, ∃ f ∈ (Loader.init.addAll calls).rows.flatten, Comes f.row r) (hu : rows.Pairwise Up) : Tidy rows ∧ RowsOk rows := by
  obtain ⟨hok, _⟩ := loader_ok hH hS
  have hin : ∀ {f : FRow}, f ∈ (Loader.init.addAll calls).rows.flatten → f.row ∈ loaderRows calls := fun hf => List.mem_map_of_mem hf
  have hform : ∀ r ∈ rows, RowOk r := by
    intro r hr
    obtain ⟨f, hf, h⟩ := hc r hr
    refine ⟨fun h0 => ?_, fun h0 => (h.form.gt h0).2.1⟩
    obtain ⟨e1, e2, _⟩ := h.pd h0
    rw [e2]
    exact (hok.form _ (hin hf)).1 (by rw [← e1]; exact h0)
  have hgts : ∀ x ∈ rows, ∀ y ∈ rows, 0 ≤ x.gt → x.gt = y.gt → x.datum = y.datum ∧ x.gl = y.gl := by
    intro x hx y hy h0 he
    obtain ⟨f, hf, h⟩ := hc x hx
    obtain ⟨f', hf', h'⟩ := hc y hy
    obtain ⟨e1, e2⟩ := h.gt h0
    obtain ⟨e3, e4⟩ := h'.gt (by omega)
    obtain ⟨e5, e6⟩ := hok.gts _ (hin hf) _ (hin hf') (by omega) (by omega)
    exact ⟨by rw [h.datum, h'.datum, e5], by rw [e2, e4, e6]⟩
  refine ⟨⟨hform, fun x hx y hy h0 he => (hgts x hx y hy h0 he).2, ?_, ?_, ?_, hu⟩, ⟨?_, hform, hgts, ?_⟩⟩
  · intro r hr h0
    obtain ⟨f, hf, h⟩ := hc r hr
    exact ⟨(h.form.gt h0).1, (h.form.gt h0).2.2⟩
  · intro r hr h0 h1
    obtain ⟨f, hf, h⟩ := hc r hr
    rw [h.iou h0 h1]
    exact loader_lone (hin hf) (by rw [← (h.gt h0).1]; exact h0) (by rw [← (h.pd h1).1]; exact h1)
  · intro x hx y hy h0 hk
    obtain ⟨f, hf, h⟩ := hc x hx
    obtain ⟨f', hf', h'⟩ := hc y hy
    obtain ⟨k1, k2, k3⟩ := pdKey_iff.1 hk
    obtain ⟨e1, e2, e3⟩ := h.pd h0
    obtain ⟨e4, e5, e6⟩ := h'.pd (by omega)
    have hcols : pdCols f = pdCols f' := by
      unfold pdCols
      rw [← h.datum, ← h'.datum, ← e1, ← e2, ← e4, ← e5, k1, k2, k3]
    rw [e3, e6]
    exact (loader_pdTexts hD hf hf' (by omega) hcols).2.2.2
  · intro r hr
    obtain ⟨f, hf, h⟩ := hc r hr
    by_cases h0 : 0 ≤ r.gt
    · by_cases h1 : 0 ≤ r.pd
      · rw [h.iou h0 h1]
        exact hok.iou _ (hin hf)
      · rw [(h.form.pd (by omega)).2.2.2]
        constructor <;> norm_num
    · rw [(h.form.gt (by omega)).2.2]
      constructor <;> norm_num
  · intro x hx y hy h0 he
    obtain ⟨f, hf, h⟩ := hc x hx
    obtain ⟨f', hf', h'⟩ := hc y hy
    have e1 := (h.pd h0).1
    have e2 := (h'.pd (by omega)).1
    rw [h.datum, h'.datum]
    exact hok.pds _ (hin hf) _ (hin hf') (by omega) (by omega)

theorem loader_tidy {calls : List History} (hH : HistoryOk calls.flatten) (hD : DistinctLabels calls.flatten) (hS : SizesOk (Loader.init.addAll calls)) :
    Tidy (loaderRows calls) := by
  refine (tidy_comes hH hD hS ?_ (loader_up calls)).1
  intro r hr
  obtain ⟨f, hf, rfl⟩ := List.mem_map.1 hr
  exact ⟨f, hf, rfl, fun _ => ⟨rfl, rfl⟩, fun _ => ⟨rfl, rfl, rfl⟩, fun _ _ => rfl, loader_form hf⟩

theorem filtered_tidy {calls : List History} {tables : List (List FRow)} (hs : StoredSorted (Loader.init.addAll calls).rows tables)
    (hH : HistoryOk calls.flatten) (hD : DistinctLabels calls.flatten) (hS : SizesOk (Loader.init.addAll calls)) (q : Asks) :
    Tidy (filteredRows q tables) ∧ RowsOk (filteredRows q tables) := by
  apply tidy_comes hH hD hS
  · intro r hr
    obtain ⟨f, hf, h, _⟩ := filteredRows_from hs hD q hr
    exact ⟨f, hf, h⟩
  · have hin : ∀ r ∈ tables.flatten, r ∈ (Loader.init.addAll calls).rows.flatten := fun r hr => (stored_mem_iff hs.stored r).1 hr
    rw [filteredRows_eq hs hD q, List.pairwise_map]
    have hup := tables_up hs
    rw [List.pairwise_map] at hup
    have hup' : (tables.flatten.filter (valueOf q.d)).Pairwise (fun a b => (a ∈ (Loader.init.addAll calls).rows.flatten ∧
        b ∈ (Loader.init.addAll calls).rows.flatten) ∧ Up a.row b.row) := by
      have hsub : (tables.flatten.filter (valueOf q.d)).Sublist tables.flatten := List.filter_sublist
      rw [List.pairwise_iff_forall_sublist] at hup ⊢
      intro a b hab
      have hab' := hab.trans hsub
      exact ⟨⟨hin a (hab'.subset (by simp)), hin b (hab'.subset (by simp))⟩, hup hab'⟩
    rw [List.pairwise_filterMap]
    refine hup'.imp ?_
    rintro a b ⟨⟨ha, hb⟩, hab⟩ a' ha' b' hb' h0 hk hp
    obtain ⟨vg, vp, rfl, hv⟩ := stepRow_some ha'
    obtain ⟨wg, wp, rfl, hw⟩ := stepRow_some hb'
    have ca := clear_comes (loader_form ha) hv
    have cb := clear_comes (loader_form hb) hw
    obtain ⟨k1, k2, k3⟩ := pdKey_iff.1 hp
    have hk' := hk
    unfold rankKey at hk'
    simp only [List.cons.injEq, neg_inj, and_true] at hk'
    have h1 : 0 ≤ (clear wg wp b).row.pd := by omega
    by_cases ga : 0 ≤ (clear vg vp a).row.gt
    · have hpos : 0 < (clear vg vp a).row.iou := by
        rw [ca.iou ga h0]
        exact loader_lone (List.mem_map_of_mem ha) (by rw [← (ca.gt ga).1]; exact ga) (by rw [← (ca.pd h0).1]; exact h0)
      by_cases gb : 0 ≤ (clear wg wp b).row.gt
      · rw [(ca.gt ga).1, (cb.gt gb).1]
        obtain ⟨a1, a2, a3⟩ := ca.pd h0
        obtain ⟨b1, b2, b3⟩ := cb.pd h1
        apply hab
        · omega
        · unfold rankKey
          rw [← a3, ← b3, ← ca.iou ga h0, ← cb.iou gb h1, hk'.1, hk'.2]
        · rw [pdKey_iff]
          exact ⟨by rw [← ca.datum, ← cb.datum, k1], by rw [← a1, ← b1, k2], by rw [← a2, ← b2, k3]⟩
      · rw [hk'.2, (cb.form.gt (by omega)).2.2] at hpos
        exact absurd hpos (lt_irrefl _)
    · have h2 := (ca.form.gt (by omega)).1
      by_cases gb : 0 ≤ (clear wg wp b).row.gt
      · omega
      · have h3 := (cb.form.gt (by omega)).1
        omega

/-! ## The same rows under the ids of the whole dataset -/

/-- The label id in the table of the whole dataset. -/
def backLabel (L L' : List String) (l : Int) : Int := if l < 0 then -1 else (L.idxOf (L'.getD l.toNat "") : Int)

/-- A row of the loader for the selected annotations, with the ids of the whole dataset. -/
def back (L L' : List String) (H H' : History) (δ : Nat → Nat) (σ τ : Nat → Nat → Nat) (r : Row) : Row :=
  { datum := (δ r.datum.toNat : Nat)
    gt := if r.gt < 0 then -1 else ((gtOffset H (δ r.datum.toNat) + σ r.datum.toNat (r.gt.toNat - gtOffset H' r.datum.toNat) : Nat) : Int)
    pd := if r.pd < 0 then -1 else ((pdOffset H (δ r.datum.toNat) + τ r.datum.toNat (r.pd.toNat - pdOffset H' r.datum.toNat) : Nat) : Int)
    gl := backLabel L L' r.gl
    pl := backLabel L L' r.pl
    iou := r.iou
    score := r.score }

theorem backLabel_idx {L L' : List String} {v : String} (h : v ∈ L') : backLabel L L' (L'.idxOf v : Int) = (L.idxOf v : Int) := by
  unfold backLabel
  rw [if_neg (by omega), Int.toNat_natCast, List.getD_eq_getElem?_getD, List.getElem?_eq_getElem (List.idxOf_lt_length_of_mem h), List.getElem_idxOf]
  rfl

theorem back_gt {L L' : List String} {H H' : History} {δ : Nat → Nat} {σ τ : Nat → Nat → Nat} {x' : Det × (Nat → Nat → Rat)} {i g : Nat} {b : Ann}
    {f : FRow} (h : GtSays L' x' i (gtOffset H' i) f g b) (hl : b.labels.headD "" ∈ L') :
    (back L L' H H' δ σ τ f.row).datum = (δ i : Nat) ∧
    (back L L' H H' δ σ τ f.row).gt = ((gtOffset H (δ i) + σ i g : Nat) : Int) ∧
    (back L L' H H' δ σ τ f.row).gl = (L.idxOf (b.labels.headD "") : Int) := by
  unfold back
  simp only [h.gt, h.gl, h.datum, Int.toNat_natCast, backLabel_idx hl]
  rw [if_neg (by omega), Nat.add_sub_cancel_left]
  exact ⟨trivial, rfl, trivial⟩

theorem back_pd {L L' : List String} {H H' : History} {δ : Nat → Nat} {σ τ : Nat → Nat → Nat} {x' : Det × (Nat → Nat → Rat)} {i p : Nat} {a : Ann}
    {v : String} {c : Rat} {f : FRow} (h : PdSays L' x' i (pdOffset H' i) f p a v c) (hl : v ∈ L') :
    (back L L' H H' δ σ τ f.row).datum = (δ i : Nat) ∧
    (back L L' H H' δ σ τ f.row).pd = ((pdOffset H (δ i) + τ i p : Nat) : Int) ∧
    (back L L' H H' δ σ τ f.row).pl = (L.idxOf v : Int) ∧ (back L L' H H' δ σ τ f.row).score = c := by
  unfold back
  simp only [h.pd, h.pl, h.datum, h.score, Int.toNat_natCast, backLabel_idx hl]
  rw [if_neg (by omega), Nat.add_sub_cancel_left]
  exact ⟨trivial, rfl, trivial, trivial⟩

section
variable {q : Asks} {calls calls' : List History} {δ : Nat → Nat} {σ τ : Nat → Nat → Nat} (hP : Picks q calls.flatten calls'.flatten δ σ τ)
  (hH : HistoryOk calls.flatten) (hH' : HistoryOk calls'.flatten)

/-- Abbreviation for the renaming between the two datasets. -/
abbrev backOf (calls calls' : List History) (δ : Nat → Nat) (σ τ : Nat → Nat → Nat) : Row → Row :=
  back (Loader.init.addAll calls).labels (Loader.init.addAll calls').labels calls.flatten calls'.flatten δ σ τ

/-- The ground truth of a row of the loader in both datasets. -/
structure GtCase (calls calls' : List History) (δ : Nat → Nat) (σ τ : Nat → Nat → Nat) (r : Row) (i : Nat) (x x' : Det × (Nat → Nat → Rat)) (g : Nat)
    (b : Ann) : Prop where
  gts' : x'.1.gts[g]? = some b
  gts : x.1.gts[σ i g]? = some b
  gt' : r.gt = ((gtOffset calls'.flatten i + g : Nat) : Int)
  gl' : r.gl = ((Loader.init.addAll calls').labels.idxOf (b.labels.headD "") : Int)
  gt : (backOf calls calls' δ σ τ r).gt = ((gtOffset calls.flatten (δ i) + σ i g : Nat) : Int)
  gl : (backOf calls calls' δ σ τ r).gl = ((Loader.init.addAll calls).labels.idxOf (b.labels.headD "") : Int)
  known' : b.labels.headD "" ∈ (Loader.init.addAll calls').labels
  known : b.labels.headD "" ∈ (Loader.init.addAll calls).labels

/-- The prediction of a row of the loader in both datasets. -/
structure PdCase (calls calls' : List History) (δ : Nat → Nat) (σ τ : Nat → Nat → Nat) (q : Asks) (r : Row) (i : Nat) (x x' : Det × (Nat → Nat → Rat))
    (p : Nat) (a : Ann) (v : String) (c : Rat) : Prop where
  lt : p < x'.1.pds.length
  pds : x.1.pds[τ i p]? = some a
  zip : (v, c) ∈ a.labels.zip a.scores
  asked : q.pd x.1.uid (some a.uid) (some v) c = true
  score : r.score = c
  pd' : r.pd = ((pdOffset calls'.flatten i + p : Nat) : Int)
  pl' : r.pl = ((Loader.init.addAll calls').labels.idxOf v : Int)
  pd : (backOf calls calls' δ σ τ r).pd = ((pdOffset calls.flatten (δ i) + τ i p : Nat) : Int)
  pl : (backOf calls calls' δ σ τ r).pl = ((Loader.init.addAll calls).labels.idxOf v : Int)
  known' : v ∈ (Loader.init.addAll calls').labels
  known : v ∈ (Loader.init.addAll calls).labels

include hH in
theorem gt_case {i : Nat} {x x' : Det × (Nat → Nat → Rat)} (hx' : calls'.flatten[i]? = some x') (hx : calls.flatten[δ i]? = some x)
    (hsel : Selects q x x' (σ i) (τ i)) {f : FRow}
    (hf : IsRow (Loader.init.addAll calls').labels x'.1 x'.2 i (gtOffset calls'.flatten i) (pdOffset calls'.flatten i) f) {g : Nat} {b : Ann}
    (h : GtSays (Loader.init.addAll calls').labels x' i (gtOffset calls'.flatten i) f g b) : GtCase calls calls' δ σ τ f.row i x x' g b := by
  have hk' := (isRow_labels calls' hx' hf).1 _ h.label
  obtain ⟨_, e1, e2⟩ := back_gt (L := (Loader.init.addAll calls).labels) (H := calls.flatten) (δ := δ) (σ := σ) (τ := τ) h hk'
  have hb : x.1.gts[σ i g]? = some b := (hsel.gts g (getElem?_lt h.gts)).trans h.gts
  have hxm := List.mem_of_getElem? hx
  obtain ⟨f0, hf0, hg0⟩ := says_gt (L := (Loader.init.addAll calls).labels) (k := δ i) (g0 := gtOffset calls.flatten (δ i)) (p0 := pdOffset calls.flatten (δ i))
    (hH.gtLabel x hxm) (hH.pdLabel x hxm) hb
  exact ⟨h.gts, hb, h.gt, h.gl, e1, e2, hk', (isRow_labels calls hx hf0).1 _ hg0.label⟩

include hH in
theorem pd_case {i : Nat} {x x' : Det × (Nat → Nat → Rat)} (hx' : calls'.flatten[i]? = some x') (hx : calls.flatten[δ i]? = some x)
    (hsel : Selects q x x' (σ i) (τ i)) {f : FRow}
    (hf : IsRow (Loader.init.addAll calls').labels x'.1 x'.2 i (gtOffset calls'.flatten i) (pdOffset calls'.flatten i) f) {p : Nat} {a' : Ann} {v : String}
    {c : Rat} (h : PdSays (Loader.init.addAll calls').labels x' i (pdOffset calls'.flatten i) f p a' v c) :
    ∃ a, PdCase calls calls' δ σ τ q f.row i x x' p a v c := by
  have hk' := (isRow_labels calls' hx' hf).2 _ h.label
  obtain ⟨_, e1, e2, _⟩ := back_pd (L := (Loader.init.addAll calls).labels) (H := calls.flatten) (δ := δ) (σ := σ) (τ := τ) h hk'
  obtain ⟨a, ha, hz⟩ := hsel.pds p a' h.pds
  have hzip := h.zip
  rw [hz, List.mem_filter] at hzip
  have hxm := List.mem_of_getElem? hx
  obtain ⟨f0, hf0, hg0⟩ := says_pd (L := (Loader.init.addAll calls).labels) (k := δ i) (g0 := gtOffset calls.flatten (δ i)) (p0 := pdOffset calls.flatten (δ i))
    (hH.gtLabel x hxm) ha hzip.1
  exact ⟨a, getElem?_lt h.pds, ha, hzip.1, hzip.2, h.score, h.pd, h.pl, e1, e2, hk', (isRow_labels calls hx hf0).2 _ hg0.label⟩

include hP hH hH' in
/-- Every row of the loader for the selected annotations, in both datasets. -/
theorem back_row {r : Row} (hr : r ∈ loaderRows calls') : ∃ (i : Nat) (x x' : Det × (Nat → Nat → Rat)), calls'.flatten[i]? = some x' ∧
    calls.flatten[δ i]? = some x ∧ Selects q x x' (σ i) (τ i) ∧ r.datum = i ∧ (backOf calls calls' δ σ τ r).datum = (δ i : Nat) ∧
    ((r.gt = -1 ∧ r.gl = -1 ∧ (backOf calls calls' δ σ τ r).gt = -1 ∧ (backOf calls calls' δ σ τ r).gl = -1) ∨
      ∃ g b, GtCase calls calls' δ σ τ r i x x' g b) ∧
    ((r.pd = -1 ∧ r.pl = -1 ∧ (backOf calls calls' δ σ τ r).pd = -1 ∧ (backOf calls calls' δ σ τ r).pl = -1) ∨
      ∃ p a v c, PdCase calls calls' δ σ τ q r i x x' p a v c) := by
  have hform := form_of_mem hr
  obtain ⟨i, x', f, hx', hf, rfl⟩ := loaderRows_mem hr
  obtain ⟨x, hx, hsel⟩ := hP.det i x' hx'
  have hxm' := List.mem_of_getElem? hx'
  have hdat := hf.datum
  refine ⟨i, x, x', hx', hx, hsel, hdat, ?_, ?_, ?_⟩
  · unfold backOf back
    simp only [hdat, Int.toNat_natCast]
  · by_cases h0 : 0 ≤ f.row.gt
    · obtain ⟨g, b, h⟩ := hf.gtSays (hH'.gtLabel x' hxm') h0
      exact Or.inr ⟨g, b, gt_case hH hx' hx hsel hf h⟩
    · obtain ⟨e1, e2, _⟩ := hform.gt (by omega)
      left
      refine ⟨e1, e2, ?_, ?_⟩
      · unfold backOf back
        simp [e1]
      · unfold backOf back backLabel
        simp [e2]
  · by_cases h0 : 0 ≤ f.row.pd
    · obtain ⟨p, a', v, c, h⟩ := hf.pdSays h0
      obtain ⟨a, h⟩ := pd_case hH hx' hx hsel hf h
      exact Or.inr ⟨p, a, v, c, h⟩
    · obtain ⟨e1, e2, _⟩ := hform.pd (by omega)
      left
      refine ⟨e1, e2, ?_, ?_⟩
      · unfold backOf back
        simp [e1]
      · unfold backOf back backLabel
        simp [e2]

theorem up_inj {n : Nat} {s : Nat → Nat} (h : ∀ i j, i < j → j < n → s i < s j) {i j : Nat} (hi : i < n) (hj : j < n) : s i = s j ↔ i = j := by
  constructor
  · intro he
    rcases Nat.lt_trichotomy i j with h1 | h1 | h1
    · have := h i j h1 hj
      omega
    · exact h1
    · have := h j i h1 hi
      omega
  · rintro rfl
    rfl

include hP hH hH' in
theorem back_renames (hS : SizesOk (Loader.init.addAll calls)) (hS' : SizesOk (Loader.init.addAll calls')) :
    Renames (backOf calls calls' δ σ τ) (loaderRows calls') := by
  have row := fun {r : Row} (hr : r ∈ loaderRows calls') => back_row hP hH hH' hr
  have hdel : ∀ {i j : Nat} {x y : Det × (Nat → Nat → Rat)}, calls'.flatten[i]? = some x → calls'.flatten[j]? = some y → (δ i = δ j ↔ i = j) :=
    fun h1 h2 => up_inj hP.up (getElem?_lt h1) (getElem?_lt h2)
  refine ⟨fun _ => rfl, fun _ => rfl, ?_, ?_, ?_, ?_, ?_, ?_, ?_, ?_, loader_rowOk hH' hS', ?_, ?_⟩
  · intro r hr
    obtain ⟨i, x, x', _, _, _, _, _, h | ⟨g, b, h⟩, _⟩ := row hr
    · rw [h.1, h.2.2.1]
    · rw [h.gt, h.gt']
      constructor <;> intro _ <;> omega
  · intro r hr
    obtain ⟨i, x, x', _, _, _, _, _, _, h | ⟨p, a, v, c, h⟩⟩ := row hr
    · rw [h.1, h.2.2.1]
    · rw [h.pd, h.pd']
      constructor <;> intro _ <;> omega
  · intro r hr s hs
    obtain ⟨i, x, x', hx', _, _, e1, e2, _, _⟩ := row hr
    obtain ⟨j, y, y', hy', _, _, d1, d2, _, _⟩ := row hs
    rw [e1, e2, d1, d2]
    have := hdel hx' hy'
    omega
  · intro r hr s hs
    obtain ⟨i, x, x', hx', hx, hsel, _, _, h, _⟩ := row hr
    obtain ⟨j, y, y', hy', hy, hsel', _, _, h', _⟩ := row hs
    rcases h with h | ⟨g, b, h⟩ <;> rcases h' with h' | ⟨g', b', h'⟩
    · rw [h.1, h.2.2.1, h'.1, h'.2.2.1]
    · rw [h.1, h.2.2.1, h'.gt, h'.gt']
      constructor <;> intro _ <;> omega
    · rw [h'.1, h'.2.2.1, h.gt, h.gt']
      constructor <;> intro _ <;> omega
    · rw [h.gt, h.gt', h'.gt, h'.gt']
      constructor
      · intro he
        obtain ⟨e1, e2⟩ := offset_same (fun x => x.1.gts.length) hx hy (getElem?_lt h.gts) (getElem?_lt h'.gts) (by exact_mod_cast he)
        have hij := (hdel hx' hy').1 e1
        subst hij
        have hxy : x' = y' := Option.some.inj (hx'.symm.trans hy')
        subst hxy
        rw [(up_inj hsel.gtUp (getElem?_lt h.gts') (getElem?_lt h'.gts')).1 e2]
      · intro he
        obtain ⟨e1, e2⟩ := offset_same (fun x => x.1.gts.length) hx' hy' (getElem?_lt h.gts') (getElem?_lt h'.gts') (by exact_mod_cast he)
        rw [e1, e2]
  · intro r hr s hs
    obtain ⟨i, x, x', hx', hx, hsel, _, _, _, h⟩ := row hr
    obtain ⟨j, y, y', hy', hy, hsel', _, _, _, h'⟩ := row hs
    rcases h with h | ⟨g, b, v, c, h⟩ <;> rcases h' with h' | ⟨g', b', v', c', h'⟩
    · rw [h.1, h.2.2.1, h'.1, h'.2.2.1]
    · rw [h.1, h.2.2.1, h'.pd, h'.pd']
      constructor <;> intro _ <;> omega
    · rw [h'.1, h'.2.2.1, h.pd, h.pd']
      constructor <;> intro _ <;> omega
    · rw [h.pd, h.pd', h'.pd, h'.pd']
      constructor
      · intro he
        obtain ⟨e1, e2⟩ := offset_same (fun x => x.1.pds.length) hx hy (getElem?_lt h.pds) (getElem?_lt h'.pds) (by exact_mod_cast he)
        have hij := (hdel hx' hy').1 e1
        subst hij
        have hxy : x' = y' := Option.some.inj (hx'.symm.trans hy')
        subst hxy
        rw [(up_inj hsel.pdUp h.lt h'.lt).1 e2]
      · intro he
        obtain ⟨e1, e2⟩ := offset_same (fun x => x.1.pds.length) hx' hy' h.lt h'.lt (by exact_mod_cast he)
        rw [e1, e2]
  · intro r hr s hs
    obtain ⟨i, x, x', _, _, _, _, _, h, _⟩ := row hr
    obtain ⟨j, y, y', _, _, _, _, _, h', _⟩ := row hs
    rcases h with h | ⟨g, b, h⟩ <;> rcases h' with h' | ⟨g', b', h'⟩
    · rw [h.2.1, h.2.2.2, h'.2.1, h'.2.2.2]
    · rw [h.2.1, h.2.2.2, h'.gl, h'.gl']
      constructor <;> intro _ <;> omega
    · rw [h'.2.1, h'.2.2.2, h.gl, h.gl']
      constructor <;> intro _ <;> omega
    · rw [h.gl, h.gl', h'.gl, h'.gl', idxOf_eq_iff h.known, idxOf_eq_iff h.known']
  · intro r hr s hs
    obtain ⟨i, x, x', _, _, _, _, _, _, h⟩ := row hr
    obtain ⟨j, y, y', _, _, _, _, _, _, h'⟩ := row hs
    rcases h with h | ⟨g, b, v, c, h⟩ <;> rcases h' with h' | ⟨g', b', v', c', h'⟩
    · rw [h.2.1, h.2.2.2, h'.2.1, h'.2.2.2]
    · rw [h.2.1, h.2.2.2, h'.pl, h'.pl']
      constructor <;> intro _ <;> omega
    · rw [h'.2.1, h'.2.2.2, h.pl, h.pl']
      constructor <;> intro _ <;> omega
    · rw [h.pl, h.pl', h'.pl, h'.pl', idxOf_eq_iff h.known, idxOf_eq_iff h.known']
  · intro r hr
    obtain ⟨i, x, x', _, _, _, _, _, h, h'⟩ := row hr
    rcases h with h | ⟨g, b, h⟩ <;> rcases h' with h' | ⟨g', b', v', c', h'⟩
    · rw [h.2.1, h.2.2.2, h'.2.1, h'.2.2.2]
    · rw [h.2.1, h.2.2.2, h'.pl, h'.pl']
      constructor <;> intro _ <;> omega
    · rw [h'.2.1, h'.2.2.2, h.gl, h.gl']
      constructor <;> intro _ <;> omega
    · rw [h.gl, h.gl', h'.pl, h'.pl', idxOf_eq_iff h.known, idxOf_eq_iff h.known']
  · intro r hr
    obtain ⟨i, x, x', _, _, _, _, _, h, h'⟩ := row hr
    constructor
    · intro h0
      rcases h' with h' | ⟨g', b', v', c', h'⟩
      · omega
      · rw [h'.pl]
        have h1 := idxOf_mem_lt h'.known
        have h2 := hS.labels
        constructor <;> omega
    · intro h0
      rcases h with h | ⟨g, b, h⟩
      · exact h.2.2.2
      · rw [h.gt] at h0
        omega
  · intro r hr s hs hd hlt
    obtain ⟨i, x, x', hx', hx, hsel, d1, _, _, h⟩ := row hr
    obtain ⟨j, y, y', hy', hy, hsel', d2, _, _, h'⟩ := row hs
    have hij : i = j := by omega
    subst hij
    have hxy : x' = y' := Option.some.inj (hx'.symm.trans hy')
    subst hxy
    rcases h with h | ⟨g, b, v, c, h⟩ <;> rcases h' with h' | ⟨g', b', v', c', h'⟩
    · omega
    · rw [h.2.2.1, h'.pd]
      omega
    · rw [h.pd', h'.1] at hlt
      omega
    · rw [h.pd', h'.pd'] at hlt
      rw [h.pd, h'.pd]
      have := hsel.pdUp g g' (by omega) h'.lt
      omega

include hP hH hH' in
theorem back_tidy (hS : SizesOk (Loader.init.addAll calls)) (hS' : SizesOk (Loader.init.addAll calls')) (hD' : DistinctLabels calls'.flatten) :
    Tidy ((loaderRows calls').map (backOf calls calls' δ σ τ)) := by
  have hR := back_renames hP hH hH' hS hS'
  have hT := loader_tidy hH' hD' hS'
  have hmem : ∀ r ∈ (loaderRows calls').map (backOf calls calls' δ σ τ), ∃ r' ∈ loaderRows calls', backOf calls calls' δ σ τ r' = r :=
    fun r hr => List.mem_map.1 hr
  refine ⟨?_, ?_, ?_, ?_, ?_, ?_⟩
  · intro r hr
    replace hr := hmem r hr
    obtain ⟨r, hr, rfl⟩ := hr
    exact hR.ok' r hr
  · intro x hx y hy h0 he
    replace hx := hmem x hx
    obtain ⟨x, hx, rfl⟩ := hx
    replace hy := hmem y hy
    obtain ⟨y, hy, rfl⟩ := hy
    exact (hR.gl x hx y hy).2 (hT.gl x hx y hy ((hR.gt0 x hx).1 h0) ((hR.gt x hx y hy).1 he))
  · intro r hr h0
    replace hr := hmem r hr
    obtain ⟨r, hr, rfl⟩ := hr
    have h1 : r.gt < 0 := by
      by_contra hn
      have := (hR.gt0 r hr).2 (by omega)
      omega
    refine ⟨?_, (hT.lone r hr h1).2⟩
    unfold backOf back
    simp [h1]
  · intro r hr h0 h1
    replace hr := hmem r hr
    obtain ⟨r, hr, rfl⟩ := hr
    exact hT.pair r hr ((hR.gt0 r hr).1 h0) ((hR.pd0 r hr).1 h1)
  · intro x hx y hy h0 he
    replace hx := hmem x hx
    obtain ⟨x, hx, rfl⟩ := hx
    replace hy := hmem y hy
    obtain ⟨y, hy, rfl⟩ := hy
    exact hT.score x hx y hy ((hR.pd0 x hx).1 h0) ((hR.pdKey hx hy).1 he)
  · rw [List.pairwise_map]
    have hup : (loaderRows calls').Pairwise (fun a b => (a ∈ loaderRows calls' ∧ b ∈ loaderRows calls') ∧ Up a b) := by
      have := hT.asc
      rw [List.pairwise_iff_forall_sublist] at this ⊢
      intro a b hab
      exact ⟨⟨hab.subset (by simp), hab.subset (by simp)⟩, this hab⟩
    refine hup.imp ?_
    rintro a b ⟨⟨ha, hb⟩, h⟩ h0 hk hp
    have hab := h ((hR.pd0 a ha).1 h0) (by rw [← hR.key a, ← hR.key b, hk]) ((hR.pdKey ha hb).1 hp)
    have hd := (pdKey_iff.1 ((hR.pdKey ha hb).1 hp)).1
    obtain ⟨i, x, x', hx', hx, hsel, d1, _, h, _⟩ := back_row hP hH hH' ha
    obtain ⟨j, y, y', hy', hy, hsel', d2, _, h', _⟩ := back_row hP hH hH' hb
    have hij : i = j := by omega
    subst hij
    have hxy : x' = y' := Option.some.inj (hx'.symm.trans hy')
    subst hxy
    rcases h with h | ⟨g, b, h⟩ <;> rcases h' with h' | ⟨g', b', h'⟩
    · omega
    · rw [h.2.2.1, h'.gt]
      omega
    · rw [h.gt', h'.1] at hab
      omega
    · rw [h.gt', h'.gt'] at hab
      rw [h.gt, h'.gt]
      rcases Nat.lt_or_ge g g' with hlt | hge
      · have := hsel.gtUp g g' hlt (getElem?_lt h'.gts')
        omega
      · have : g = g' := by omega
        subst this
        omega

theorem row_ext {r s : Row} (h1 : r.datum = s.datum) (h2 : r.gt = s.gt) (h3 : r.pd = s.pd) (h4 : r.gl = s.gl) (h5 : r.pl = s.pl) (h6 : r.iou = s.iou)
    (h7 : r.score = s.score) : r = s := by
  cases r
  cases s
  simp_all

section
variable {tables : List (List FRow)} (hs : StoredSorted (Loader.init.addAll calls).rows tables) (hD : DistinctLabels calls.flatten)

include hP hs hD hH hH'

theorem filtered_to : SameRows (filteredRows q tables) ((loaderRows calls').map (backOf calls calls' δ σ τ)) := by
  have hmem : ∀ {i : Nat} {x' : Det × (Nat → Nat → Rat)} {f : FRow}, calls'.flatten[i]? = some x' →
      IsRow (Loader.init.addAll calls').labels x'.1 x'.2 i (gtOffset calls'.flatten i) (pdOffset calls'.flatten i) f →
      backOf calls calls' δ σ τ f.row ∈ (loaderRows calls').map (backOf calls calls' δ σ τ) :=
    fun hx' hf => List.mem_map_of_mem (List.mem_map_of_mem (isRow_mem hx' hf))
  have hdat : ∀ {k : Nat} {x : Det × (Nat → Nat → Rat)}, calls.flatten[k]? = some x → q.datum x.1.uid = true →
      ∃ i x', calls'.flatten[i]? = some x' ∧ δ i = k ∧ Selects q x x' (σ i) (τ i) := by
    intro k x hx hq
    obtain ⟨i, hi, rfl⟩ := (hP.all k x hx).2 hq
    obtain ⟨y, hy, hsel⟩ := hP.det i _ (List.getElem?_eq_getElem hi)
    have : y = x := Option.some.inj (hy.symm.trans hx)
    subst this
    exact ⟨i, _, List.getElem?_eq_getElem hi, rfl, hsel⟩
  have hpd : ∀ {x x' : Det × (Nat → Nat → Rat)} {s u : Nat → Nat}, Selects q x x' s u → ∀ {p : Nat} {a : Ann} {v : String} {c : Rat}, x.1.pds[p]? = some a →
      (v, c) ∈ a.labels.zip a.scores → q.pd x.1.uid (some a.uid) (some v) c = true →
      ∃ j a', x'.1.pds[j]? = some a' ∧ u j = p ∧ (v, c) ∈ a'.labels.zip a'.scores := by
    intro x x' s u hsel p a v c ha hz hq
    obtain ⟨j, hj, rfl⟩ := (hsel.pdAll p a ha).2 ⟨(v, c), hz, hq⟩
    obtain ⟨a0, ha0, hzz⟩ := hsel.pds j _ (List.getElem?_eq_getElem hj)
    have : a0 = a := Option.some.inj (ha0.symm.trans ha)
    subst this
    refine ⟨j, _, List.getElem?_eq_getElem hj, rfl, ?_⟩
    rw [hzz, List.mem_filter]
    exact ⟨hz, hq⟩
  refine ⟨?_, ?_, ?_⟩
  · intro r h0 h1 hr
    obtain ⟨f, hf, hc, hqd, hqg, hqp⟩ := filteredRows_from hs hD q hr
    obtain ⟨k, x, hx, hrow⟩ := loader_row hf
    have hxm := List.mem_of_getElem? hx
    obtain ⟨g, b, p, a, v, c, hg, hp, he, hi⟩ := hrow.pairSays (hH.gtLabel x hxm) (by rw [← (hc.gt h0).1]; exact h0) (by rw [← (hc.pd h1).1]; exact h1)
    have hqd := hqd
    have hqg := hqg h0
    have hqp := hqp h1
    rw [hg.duid] at hqd
    rw [hg.duid, hg.uid, hg.label] at hqg
    rw [hp.duid, hp.uid, hp.label, hp.score] at hqp
    obtain ⟨i, x', hx', rfl, hsel⟩ := hdat hx hqd
    obtain ⟨g', hg', rfl⟩ := (hsel.gtAll g b hg.gts).2 hqg
    obtain ⟨j, a', ha', rfl, hz'⟩ := hpd hsel hp.pds hp.zip hqp
    have hb' : x'.1.gts[g']? = some b := (hsel.gts g' hg').symm.trans hg.gts
    have hio := hsel.iou j g' (getElem?_lt ha') hg'
    obtain ⟨f', hf', s1, s2, s3⟩ := says_pair (L := (Loader.init.addAll calls').labels) (k := i) (g0 := gtOffset calls'.flatten i)
      (p0 := pdOffset calls'.flatten i) (hH'.gtLabel x' (List.mem_of_getElem? hx')) hb' ha' hz' (by rw [hio]; exact he)
    obtain ⟨e1, e2, e3⟩ := back_gt (L := (Loader.init.addAll calls).labels) (H := calls.flatten) (δ := δ) (σ := σ) (τ := τ) s1
      ((isRow_labels calls' hx' hf').1 _ s1.label)
    obtain ⟨_, e4, e5, e6⟩ := back_pd (L := (Loader.init.addAll calls).labels) (H := calls.flatten) (δ := δ) (σ := σ) (τ := τ) s2
      ((isRow_labels calls' hx' hf').2 _ s2.label)
    have hrr : backOf calls calls' δ σ τ f'.row = r := by
      apply row_ext
      · rw [hc.datum, hg.datum]; exact e1
      · rw [(hc.gt h0).1, hg.gt]; exact e2
      · rw [(hc.pd h1).1, hp.pd]; exact e4
      · rw [(hc.gt h0).2, hg.gl]; exact e3
      · rw [(hc.pd h1).2.1, hp.pl]; exact e5
      · rw [hc.iou h0 h1, hi, ← hio]; exact s3
      · rw [(hc.pd h1).2.2, hp.score]; exact e6
    rw [← hrr]
    exact hmem hx' hf'
  · intro r hr h1
    obtain ⟨f, hf, hc, hqd, _, hqp⟩ := filteredRows_from hs hD q hr
    obtain ⟨k, x, hx, hrow⟩ := loader_row hf
    obtain ⟨p, a, v, c, hp⟩ := hrow.pdSays (by rw [← (hc.pd h1).1]; exact h1)
    have hqp := hqp h1
    rw [hp.duid] at hqd
    rw [hp.duid, hp.uid, hp.label, hp.score] at hqp
    obtain ⟨i, x', hx', rfl, hsel⟩ := hdat hx hqd
    obtain ⟨j, a', ha', rfl, hz'⟩ := hpd hsel hp.pds hp.zip hqp
    obtain ⟨f', hf', s2⟩ := says_pd (L := (Loader.init.addAll calls').labels) (k := i) (g0 := gtOffset calls'.flatten i)
      (p0 := pdOffset calls'.flatten i) (hH'.gtLabel x' (List.mem_of_getElem? hx')) ha' hz'
    obtain ⟨e1, e4, e5, e6⟩ := back_pd (L := (Loader.init.addAll calls).labels) (H := calls.flatten) (δ := δ) (σ := σ) (τ := τ) s2
      ((isRow_labels calls' hx' hf').2 _ s2.label)
    refine ⟨_, hmem hx' hf', ?_, ?_⟩
    · rw [pdKey_iff]
      refine ⟨?_, ?_, ?_⟩
      · rw [hc.datum, hp.datum]; exact e1
      · rw [(hc.pd h1).1, hp.pd]; exact e4
      · rw [(hc.pd h1).2.1, hp.pl]; exact e5
    · rw [(hc.pd h1).2.2, hp.score]; exact e6
  · intro r hr h0
    obtain ⟨f, hf, hc, hqd, hqg, _⟩ := filteredRows_from hs hD q hr
    obtain ⟨k, x, hx, hrow⟩ := loader_row hf
    obtain ⟨g, b, hg⟩ := hrow.gtSays (hH.gtLabel x (List.mem_of_getElem? hx)) (by rw [← (hc.gt h0).1]; exact h0)
    have hqg := hqg h0
    rw [hg.duid] at hqd
    rw [hg.duid, hg.uid, hg.label] at hqg
    obtain ⟨i, x', hx', rfl, hsel⟩ := hdat hx hqd
    obtain ⟨g', hg', rfl⟩ := (hsel.gtAll g b hg.gts).2 hqg
    have hb' : x'.1.gts[g']? = some b := (hsel.gts g' hg').symm.trans hg.gts
    have hxm' := List.mem_of_getElem? hx'
    obtain ⟨f', hf', s1⟩ := says_gt (L := (Loader.init.addAll calls').labels) (k := i) (g0 := gtOffset calls'.flatten i)
      (p0 := pdOffset calls'.flatten i) (hH'.gtLabel x' hxm') (hH'.pdLabel x' hxm') hb'
    obtain ⟨e1, e2, e3⟩ := back_gt (L := (Loader.init.addAll calls).labels) (H := calls.flatten) (δ := δ) (σ := σ) (τ := τ) s1
      ((isRow_labels calls' hx' hf').1 _ s1.label)
    refine ⟨_, hmem hx' hf', ?_, ?_, ?_⟩
    · rw [(hc.gt h0).1, hg.gt]; exact e2
    · rw [(hc.gt h0).2, hg.gl]; exact e3
    · rw [hc.datum, hg.datum]; exact e1

theorem filtered_of : SameRows ((loaderRows calls').map (backOf calls calls' δ σ τ)) (filteredRows q tables) := by
  have hdat : ∀ {i : Nat} {x x' : Det × (Nat → Nat → Rat)}, calls'.flatten[i]? = some x' → calls.flatten[δ i]? = some x → q.datum x.1.uid = true :=
    fun hx' hx => (hP.all _ _ hx).1 ⟨_, getElem?_lt hx', rfl⟩
  refine ⟨?_, ?_, ?_⟩
  · intro r h0 h1 hr
    obtain ⟨r', hr', rfl⟩ := List.mem_map.1 hr
    obtain ⟨i, x', f', hx', hf', rfl⟩ := loaderRows_mem hr'
    obtain ⟨x, hx, hsel⟩ := hP.det i x' hx'
    have hxm := List.mem_of_getElem? hx
    have hg0 : 0 ≤ f'.row.gt := by
      by_contra hn
      have : (backOf calls calls' δ σ τ f'.row).gt = -1 := by
        unfold backOf back
        simp [not_le.1 hn]
      omega
    have hp0 : 0 ≤ f'.row.pd := by
      by_contra hn
      have : (backOf calls calls' δ σ τ f'.row).pd = -1 := by
        unfold backOf back
        simp [not_le.1 hn]
      omega
    obtain ⟨g, b, p, a', v, c, hg, hp, he, hi⟩ := hf'.pairSays (hH'.gtLabel x' (List.mem_of_getElem? hx')) hg0 hp0
    have cg := gt_case (δ := δ) hH hx' hx hsel hf' hg
    obtain ⟨a, cp⟩ := pd_case (δ := δ) hH hx' hx hsel hf' hp
    have hio := hsel.iou p g cp.lt (getElem?_lt cg.gts')
    obtain ⟨f, hf, s1, s2, s3⟩ := says_pair (L := (Loader.init.addAll calls).labels) (k := δ i) (g0 := gtOffset calls.flatten (δ i))
      (p0 := pdOffset calls.flatten (δ i)) (hH.gtLabel x hxm) cg.gts cp.pds cp.zip (by rw [← hio]; exact he)
    have hqg := (hsel.gtAll _ _ cg.gts).1 ⟨g, getElem?_lt cg.gts', rfl⟩
    have hin := (filteredRows_has hs hD q (isRow_mem hx hf) (by rw [s1.duid]; exact hdat hx' hx)).2.2 (by rw [s1.gt]; omega) (by rw [s2.pd]; omega)
      (by rw [s1.duid, s1.uid, s1.label]; exact hqg) (by rw [s2.duid, s2.uid, s2.label, s2.score]; exact cp.asked)
    have hrr : backOf calls calls' δ σ τ f'.row = f.row := by
      apply row_ext
      · rw [s1.datum]
        unfold backOf back
        simp only [hg.datum, Int.toNat_natCast]
      · rw [s1.gt]; exact cg.gt
      · rw [s2.pd]; exact cp.pd
      · rw [s1.gl]; exact cg.gl
      · rw [s2.pl]; exact cp.pl
      · rw [s3, ← hio, ← hi]; rfl
      · rw [s2.score, ← cp.score]; rfl
    rw [hrr]
    exact hin
  · intro r hr h1
    obtain ⟨r', hr', rfl⟩ := List.mem_map.1 hr
    obtain ⟨i, x, x', hx', hx, hsel, d1, d2, _, h | ⟨p, a, v, c, cp⟩⟩ := back_row hP hH hH' hr'
    · omega
    · obtain ⟨f, hf, s2⟩ := says_pd (L := (Loader.init.addAll calls).labels) (k := δ i) (g0 := gtOffset calls.flatten (δ i))
        (p0 := pdOffset calls.flatten (δ i)) (hH.gtLabel x (List.mem_of_getElem? hx)) cp.pds cp.zip
      obtain ⟨r, hr, _, e1, e2⟩ := (filteredRows_has hs hD q (isRow_mem hx hf) (by rw [s2.duid]; exact hdat hx' hx)).2.1 (by rw [s2.pd]; omega)
        (by rw [s2.duid, s2.uid, s2.label, s2.score]; exact cp.asked)
      refine ⟨r, hr, ?_, ?_⟩
      · rw [e1, pdKey_iff]
        exact ⟨by rw [s2.datum, d2], by rw [s2.pd, cp.pd], by rw [s2.pl, cp.pl]⟩
      · rw [e2, s2.score, ← cp.score]; rfl
  · intro r hr h0
    obtain ⟨r', hr', rfl⟩ := List.mem_map.1 hr
    obtain ⟨i, x, x', hx', hx, hsel, d1, d2, h | ⟨g, b, cg⟩, _⟩ := back_row hP hH hH' hr'
    · omega
    · have hxm := List.mem_of_getElem? hx
      obtain ⟨f, hf, s1⟩ := says_gt (L := (Loader.init.addAll calls).labels) (k := δ i) (g0 := gtOffset calls.flatten (δ i))
        (p0 := pdOffset calls.flatten (δ i)) (hH.gtLabel x hxm) (hH.pdLabel x hxm) cg.gts
      have hqg := (hsel.gtAll _ _ cg.gts).1 ⟨g, getElem?_lt cg.gts', rfl⟩
      obtain ⟨r, hr, hc, e1, e2⟩ := (filteredRows_has hs hD q (isRow_mem hx hf) (by rw [s1.duid]; exact hdat hx' hx)).1 (by rw [s1.gt]; omega)
        (by rw [s1.duid, s1.uid, s1.label]; exact hqg)
      exact ⟨r, hr, by rw [e1, s1.gt, cg.gt], by rw [e2, s1.gl, cg.gl], by rw [hc.datum, s1.datum, d2]⟩

end

end

theorem Picks.distinct {q : Asks} {H H' : History} {δ : Nat → Nat} {σ τ : Nat → Nat → Nat} (h : Picks q H H' δ σ τ) (hD : DistinctLabels H)
    (hH : HistoryOk H) (hH' : HistoryOk H') : DistinctLabels H' := by
  intro x' hx' a' ha'
  obtain ⟨i, hi⟩ := List.mem_iff_getElem?.1 hx'
  obtain ⟨x, hx, hsel⟩ := h.det i x' hi
  obtain ⟨j, hj⟩ := List.mem_iff_getElem?.1 ha'
  obtain ⟨a, ha, hz⟩ := hsel.pds j a' hj
  have hlen := (hH'.pdLabel x' hx' a' ha').2
  have e : a'.labels = (a'.labels.zip a'.scores).map Prod.fst := by
    rw [List.map_fst_zip (by omega)]
  rw [e, hz]
  have hn := hD x (List.mem_of_getElem? hx) a (List.mem_of_getElem? ha)
  refine List.Nodup.sublist (List.Sublist.map _ List.filter_sublist) ?_
  rw [List.map_fst_zip (by rw [(hH.pdLabel x (List.mem_of_getElem? hx) a (List.mem_of_getElem? ha)).2])]
  exact hn

/-! ## C122 -/

/-- The filtered cache is a division of the rows that `filter` writes. -/
theorem filtered_divides {calls : List History} {tables ft : List (List FRow)} (hs : StoredSorted (Loader.init.addAll calls).rows tables) (q : Asks)
    (hf : StoredSorted (filterTables q.d q.g q.p tables) ft) : Divides (filteredRows q tables) (rowsIn ft) := by
  apply divides_stored hf _ (fun _ => rfl)
  obtain ⟨groups, hg, rfl⟩ := hs
  have hd := pairwise_nonempty_flatten (R := fun x y => x.row.datum < y.row.datum) hg (loader_ascending calls)
  unfold filterTables
  rw [List.pairwise_map, List.pairwise_map]
  refine hd.imp ?_
  intro a b hab x hx y hy
  have key : ∀ {t : List (List FRow)} {x : FRow}, x ∈ filterTable q.g q.p (readTable q.d (sortBy fKey t.flatten)) → ∃ x0 ∈ t.flatten, x.row.datum = x0.row.datum := by
    intro t x hx
    unfold filterTable at hx
    dsimp only at hx
    obtain ⟨x0, hx0, rfl⟩ := List.mem_map.1 hx
    have h1 := (List.mem_filter.1 hx0).1
    rw [readTable_value] at h1
    exact ⟨x0, (List.mergeSort_perm _ _).mem_iff.1 (List.mem_filter.1 h1).1, rfl⟩
  obtain ⟨x0, hx0, e1⟩ := key hx
  obtain ⟨y0, hy0, e2⟩ := key hy
  rw [e1, e2]
  exact hab x0 hx0 y0 hy0

theorem back_label {calls calls' : List History} {q : Asks} {δ : Nat → Nat} {σ τ : Nat → Nat → Nat} (hP : Picks q calls.flatten calls'.flatten δ σ τ)
    (hH : HistoryOk calls.flatten) (hH' : HistoryOk calls'.flatten) (v : String) {r : Row} (hr : r ∈ loaderRows calls') :
    ((backOf calls calls' δ σ τ r).gl = labelId calls v ↔ r.gl = labelId calls' v) ∧
    ((backOf calls calls' δ σ τ r).pl = labelId calls v ↔ r.pl = labelId calls' v) := by
  obtain ⟨i, x, x', _, _, _, _, _, h1, h2⟩ := back_row hP hH hH' hr
  constructor
  · rcases h1 with h | ⟨g, b, h⟩
    · rw [h.2.1, h.2.2.2]
      unfold labelId
      constructor <;> intro _ <;> omega
    · rw [h.gl, h.gl']
      unfold labelId
      rw [idxOf_eq_iff h.known, idxOf_eq_iff h.known']
  · rcases h2 with h | ⟨p, a, w, c, h⟩
    · rw [h.2.1, h.2.2.2]
      unfold labelId
      constructor <;> intro _ <;> omega
    · rw [h.pl, h.pl']
      unfold labelId
      rw [idxOf_eq_iff h.known, idxOf_eq_iff h.known']

/-- **C122.** Filter an evaluator by conditions on what the user gave, and build another from only the selected datums and annotations: for every
label and all thresholds both count the same ground truths, true positives, false positives and false negatives, however the three are stored.
Missing: predictions that list a label twice, where the claim is false (`C122_doubled_violation`). -/
theorem C122_counts_partial (e e' : Built) (hH : HistoryOk e.calls.flatten) (hH' : HistoryOk e'.calls.flatten) (hS : SizesOk (Loader.init.addAll e.calls))
    (hS' : SizesOk (Loader.init.addAll e'.calls)) (hD : DistinctLabels e.calls.flatten) (q : Asks) {δ : Nat → Nat} {σ τ : Nat → Nat → Nat}
    (hP : Picks q e.calls.flatten e'.calls.flatten δ σ τ) {ft : List (List FRow)} (hf : StoredSorted (filterTables q.d q.g q.p e.tables) ft)
    {chunks : List (List RRow)} (hr : RankedOf (rowsIn ft) chunks.flatten) (t s : Rat) (v : String) :
    gtCount (rowsIn ft) (labelId e.calls v) = e'.gt v ∧ tpTotal t s chunks (labelId e.calls v) = e'.tp t s v ∧
    fpTotal t s chunks (labelId e.calls v) = e'.fp t s v ∧ fnTotal t s (rowsIn ft) chunks (labelId e.calls v) = e'.fn t s v := by
  have hD' := hP.distinct hD hH hH'
  obtain ⟨htidy, hok⟩ := filtered_tidy e.stored hH hD hS q
  have hR := back_renames hP hH hH' hS hS'
  have hbt := back_tidy hP hH hH' hS hS' hD'
  obtain ⟨a1, a2, a3⟩ := counts_canonical (filtered_divides e.stored q hf) hok hr rfl t s (labelId e.calls v)
  obtain ⟨b1, b2, b3⟩ := counts_canonical (loader_divides e'.stored) (loader_ok hH' hS').1 e'.ranked rfl t s (labelId e'.calls v)
  obtain ⟨c1, c2, c3⟩ := counts_same htidy hbt (filtered_to hP hH hH' e.stored hD) (filtered_of hP hH hH' e.stored hD) t s (labelId e.calls v)
  have hgl := fun r hr => (back_label hP hH hH' v (r := r) hr).1
  have hpl := fun r hr => (back_label hP hH hH' v (r := r) hr).2
  rw [hR.gtOf hgl] at c1
  rw [hR.foundOf t s hpl] at c2
  rw [hR.activeOf s hpl] at c3
  have k1 : gtCount (rowsIn ft) (labelId e.calls v) = e'.gt v := a1.trans (c1.trans b1.symm)
  have k2 : tpTotal t s chunks (labelId e.calls v) = e'.tp t s v := a2.trans (c2.trans b2.symm)
  have k3 : tpTotal t s chunks (labelId e.calls v) + fpTotal t s chunks (labelId e.calls v) = e'.tp t s v + e'.fp t s v := a3.trans (c3.trans b3.symm)
  refine ⟨k1, k2, by omega, ?_⟩
  have : fnTotal t s (rowsIn ft) chunks (labelId e.calls v) = fnTotal t s (rowsIn e'.tables) e'.chunks (labelId e'.calls v) := by
    unfold fnTotal
    rw [k1, k2]
    rfl
  exact this

/-! ## The selected annotations -/

/-- The selected ground truths with their positions. -/
def Asks.gtsOf (q : Asks) (d : Det) : List (Ann × Nat) := d.gts.zipIdx.filter (fun z => q.gt d.uid (some z.1.uid) (some (z.1.labels.headD "")))

/-- The selected labels of a prediction with their scores. -/
def Asks.entries (q : Asks) (d : Det) (a : Ann) : List (String × Rat) := (a.labels.zip a.scores).filter (fun z => q.pd d.uid (some a.uid) (some z.1) z.2)

/-- The predictions with a selected label, with their positions. -/
def Asks.pdsOf (q : Asks) (d : Det) : List (Ann × Nat) := d.pds.zipIdx.filter (fun z => !(q.entries d z.1).isEmpty)

/-- The detection with only the selected annotations. -/
def Asks.only (q : Asks) (x : Det × (Nat → Nat → Rat)) : Det × (Nat → Nat → Rat) :=
  ({ x.1 with
      gts := (q.gtsOf x.1).map Prod.fst
      pds := (q.pdsOf x.1).map (fun z => { z.1 with labels := (q.entries x.1 z.1).map Prod.fst, scores := (q.entries x.1 z.1).map Prod.snd }) },
    fun j i => x.2 (((q.pdsOf x.1).map Prod.snd).getD j 0) (((q.gtsOf x.1).map Prod.snd).getD i 0))

/-- The selected datums with their positions. -/
def Asks.datumsOf (q : Asks) (H : History) : List ((Det × (Nat → Nat → Rat)) × Nat) := H.zipIdx.filter (fun z => q.datum z.1.1.uid)

/-- The dataset with only the selected datums and annotations. -/
def Asks.dataset (q : Asks) (H : History) : History := (q.datumsOf H).map (fun z => q.only z.1)

section
variable {α : Type} (l : List α) (P : α × Nat → Bool)

theorem picked_up : ∀ i j, i < j → j < (l.zipIdx.filter P).length →
    ((l.zipIdx.filter P).map Prod.snd).getD i 0 < ((l.zipIdx.filter P).map Prod.snd).getD j 0 := by
  intro i j hij hj
  have hz : (l.zipIdx.filter P).Pairwise (fun x y => x.2 < y.2) := by
    apply List.Pairwise.filter
    have : (l.zipIdx.map Prod.snd).Pairwise (· < ·) := by
      rw [List.zipIdx_map_snd]
      exact List.pairwise_lt_range'
    exact List.pairwise_map.1 this
  rw [List.pairwise_iff_getElem] at hz
  have := hz i j (by omega) hj hij
  simpa [List.getD_eq_getElem?_getD, hj, (by omega : i < (l.zipIdx.filter P).length)] using this

theorem picked_get {i : Nat} (hi : i < (l.zipIdx.filter P).length) :
    l[((l.zipIdx.filter P).map Prod.snd).getD i 0]? = some ((l.zipIdx.filter P)[i].1) ∧ P (l.zipIdx.filter P)[i] = true ∧
    ((l.zipIdx.filter P).map Prod.snd).getD i 0 = (l.zipIdx.filter P)[i].2 := by
  have hm := List.mem_filter.1 (List.getElem_mem hi)
  have e : ((l.zipIdx.filter P).map Prod.snd).getD i 0 = (l.zipIdx.filter P)[i].2 := by
    simp [List.getD_eq_getElem?_getD, hi]
  refine ⟨?_, hm.2, e⟩
  rw [e]
  exact mem_zipIdx'.1 hm.1

theorem picked_all {k : Nat} {a : α} (h : l[k]? = some a) :
    (∃ i < (l.zipIdx.filter P).length, ((l.zipIdx.filter P).map Prod.snd).getD i 0 = k) ↔ P (a, k) = true := by
  constructor
  · rintro ⟨i, hi, he⟩
    obtain ⟨h1, h2, h3⟩ := picked_get l P hi
    have e1 : (l.zipIdx.filter P)[i] = (a, k) := by
      apply Prod.ext
      · rw [he, h] at h1
        exact (Option.some.inj h1).symm
      · exact h3.symm.trans he
    rwa [e1] at h2
  · intro hp
    obtain ⟨i, hi, he⟩ := List.getElem_of_mem (List.mem_filter.2 ⟨mem_zipIdx'.2 h, hp⟩)
    refine ⟨i, hi, ?_⟩
    rw [(picked_get l P hi).2.2, he]

end

theorem selects_only (q : Asks) (x : Det × (Nat → Nat → Rat)) :
    Selects q x (q.only x) (fun i => ((q.gtsOf x.1).map Prod.snd).getD i 0) (fun j => ((q.pdsOf x.1).map Prod.snd).getD j 0) := by
  have lg : (q.only x).1.gts.length = (q.gtsOf x.1).length := List.length_map _
  have lp : (q.only x).1.pds.length = (q.pdsOf x.1).length := List.length_map _
  refine ⟨?_, ?_, ?_, ?_, ?_, ?_, ?_⟩
  · rw [lg]
    exact picked_up _ _
  · intro i hi
    rw [lg] at hi
    rw [show x.1.gts[((q.gtsOf x.1).map Prod.snd).getD i 0]? = _ from (picked_get _ _ hi).1]
    show _ = ((q.gtsOf x.1).map Prod.fst)[i]?
    rw [List.getElem?_map, List.getElem?_eq_getElem hi]
    rfl
  · intro g b hb
    rw [lg]
    exact picked_all _ _ hb
  · rw [lp]
    exact picked_up _ _
  · intro j a' ha'
    have hj := getElem?_lt ha'
    rw [lp] at hj
    refine ⟨_, (picked_get _ _ hj).1, ?_⟩
    have e : (q.only x).1.pds[j]? = some { (q.pdsOf x.1)[j].1 with
        labels := (q.entries x.1 (q.pdsOf x.1)[j].1).map Prod.fst, scores := (q.entries x.1 (q.pdsOf x.1)[j].1).map Prod.snd } := by
      show ((q.pdsOf x.1).map _)[j]? = _
      rw [List.getElem?_map, List.getElem?_eq_getElem hj]
      rfl
    rw [e, Option.some.injEq] at ha'
    rw [← ha']
    show ((q.entries x.1 _).map Prod.fst).zip ((q.entries x.1 _).map Prod.snd) = q.entries x.1 _
    exact (List.zip_of_prod rfl rfl).symm
  · intro p a ha
    rw [lp]
    refine (picked_all _ _ ha).trans ?_
    show (!(q.entries x.1 a).isEmpty) = true ↔ _
    unfold Asks.entries
    rw [Bool.not_eq_true', List.isEmpty_eq_false_iff_exists_mem]
    simp only [List.mem_filter]
  · intro j i _ _
    rfl

theorem picks_dataset (q : Asks) (H : History) : ∃ δ σ τ, Picks q H (q.dataset H) δ σ τ := by
  have ln : (q.dataset H).length = (q.datumsOf H).length := List.length_map _
  refine ⟨fun i => ((q.datumsOf H).map Prod.snd).getD i 0,
    fun i => match (q.datumsOf H)[i]? with
      | some z => fun g => ((q.gtsOf z.1.1).map Prod.snd).getD g 0
      | none => id,
    fun i => match (q.datumsOf H)[i]? with
      | some z => fun p => ((q.pdsOf z.1.1).map Prod.snd).getD p 0
      | none => id, ?_, ?_, ?_⟩
  · rw [ln]
    exact picked_up _ _
  · intro k x hx
    rw [ln]
    exact picked_all _ _ hx
  · intro i x' hx'
    have hi := getElem?_lt hx'
    rw [ln] at hi
    refine ⟨_, (picked_get _ _ hi).1, ?_⟩
    have e : (q.dataset H)[i]? = some (q.only (q.datumsOf H)[i].1) := by
      unfold Asks.dataset
      rw [List.getElem?_map, List.getElem?_eq_getElem hi]
      rfl
    rw [e, Option.some.injEq] at hx'
    rw [← hx']
    simp only [List.getElem?_eq_getElem hi]
    exact selects_only q _

/-- The selected annotations of a dataset meet what is required of a dataset. -/
theorem dataset_ok (q : Asks) {H : History} (h : HistoryOk H) : HistoryOk (q.dataset H) := by
  have hmem : ∀ x' ∈ q.dataset H, ∃ x ∈ H, x' = q.only x := by
    intro x' hx'
    unfold Asks.dataset at hx'
    obtain ⟨z, hz, rfl⟩ := List.mem_map.1 hx'
    obtain ⟨x, k⟩ := z
    exact ⟨x, List.mem_of_getElem? (mem_zipIdx'.1 (List.mem_filter.1 hz).1), rfl⟩
  refine ⟨?_, ?_, ?_⟩
  · intro x' hx' a ha
    obtain ⟨x, hx, rfl⟩ := hmem x' hx'
    obtain ⟨⟨b, k⟩, hz, rfl⟩ := List.mem_map.1 ha
    exact h.gtLabel x hx b (List.mem_of_getElem? (mem_zipIdx'.1 (List.mem_filter.1 hz).1))
  · intro x' hx' a ha
    obtain ⟨x, hx, rfl⟩ := hmem x' hx'
    obtain ⟨⟨b, k⟩, hz, rfl⟩ := List.mem_map.1 ha
    have := (List.mem_filter.1 hz).2
    dsimp only at this ⊢
    refine ⟨?_, by simp⟩
    intro hn
    rw [List.map_eq_nil_iff] at hn
    rw [hn] at this
    simp at this
  · intro x' hx' p g
    obtain ⟨x, hx, rfl⟩ := hmem x' hx'
    exact h.iou x hx _ _

/-- **C122 (evaluators).** The counts of a filtered evaluator are those of an evaluator to which only the selected datums and annotations were
added, in any calls. -/
theorem C122_only_partial (e e' : Built) (hH : HistoryOk e.calls.flatten) (hS : SizesOk (Loader.init.addAll e.calls)) (hS' : SizesOk (Loader.init.addAll e'.calls))
    (hD : DistinctLabels e.calls.flatten) (q : Asks) (he : e'.calls.flatten = q.dataset e.calls.flatten) {ft : List (List FRow)}
    (hf : StoredSorted (filterTables q.d q.g q.p e.tables) ft) {chunks : List (List RRow)} (hr : RankedOf (rowsIn ft) chunks.flatten) (t s : Rat)
    (v : String) :
    gtCount (rowsIn ft) (labelId e.calls v) = e'.gt v ∧ tpTotal t s chunks (labelId e.calls v) = e'.tp t s v ∧
    fpTotal t s chunks (labelId e.calls v) = e'.fp t s v ∧ fnTotal t s (rowsIn ft) chunks (labelId e.calls v) = e'.fn t s v := by
  obtain ⟨δ, σ, τ, hP⟩ := picks_dataset q e.calls.flatten
  rw [← he] at hP
  exact C122_counts_partial e e' hH (by rw [he]; exact dataset_ok q hH) hS hS' hD q hP hf hr t s v

/-! ## A label listed twice -/

/-- The false positives of C122 without the condition that a prediction lists no label twice. -/
def FpOfSelected : Prop := ∀ (e e' : Built), HistoryOk e.calls.flatten → SizesOk (Loader.init.addAll e.calls) → SizesOk (Loader.init.addAll e'.calls) →
  ∀ (q : Asks), e'.calls.flatten = q.dataset e.calls.flatten → ∀ {ft : List (List FRow)}, StoredSorted (filterTables q.d q.g q.p e.tables) ft →
  ∀ {chunks : List (List RRow)}, RankedOf (rowsIn ft) chunks.flatten → ∀ (t s : Rat) (v : String), fpTotal t s chunks (labelId e.calls v) = e'.fp t s v

/-- Predictions with a score below one half. -/
def doubtful : Asks := ⟨fun _ => true, fun _ _ _ => true, fun _ _ _ s => decide (s < 1 / 2)⟩

/-- What is left of the doubled label when only scores below one half are selected. -/
def undoubled : List History := [[(⟨"d", [], [⟨"p", ["cat"], [1/10], ""⟩], ""⟩, fun _ _ => 0)]]

theorem doubtful_dataset : doubtful.dataset doubled.flatten = undoubled.flatten := by
  unfold Asks.dataset
  have e : doubtful.datumsOf doubled.flatten = [((⟨"d", [], [⟨"p", ["cat", "cat"], [9/10, 1/10], ""⟩], ""⟩, fun _ _ => 0), 0)] := rfl
  rw [e, List.map_singleton]
  unfold Asks.only
  have e2 : (doubtful.gtsOf (⟨"d", [], [⟨"p", ["cat", "cat"], [9/10, 1/10], ""⟩], ""⟩ : Det)) = [] := rfl
  have e3 : (doubtful.entries (⟨"d", [], [⟨"p", ["cat", "cat"], [9/10, 1/10], ""⟩], ""⟩ : Det) ⟨"p", ["cat", "cat"], [9/10, 1/10], ""⟩) = [("cat", 1 / 10)] := by
    decide +kernel
  have e4 : (doubtful.pdsOf (⟨"d", [], [⟨"p", ["cat", "cat"], [9/10, 1/10], ""⟩], ""⟩ : Det)) = [(⟨"p", ["cat", "cat"], [9/10, 1/10], ""⟩, 0)] := by
    unfold Asks.pdsOf
    simp only [List.zipIdx_cons, List.zipIdx_nil, List.filter_cons, List.filter_nil, e3]
    rfl
  dsimp only
  rw [e2, e4]
  simp only [List.map_nil, List.map_cons, e3]
  rfl

/-- **C122 is false of the code for a prediction that lists a label twice**: of a cat with the scores 9/10 and 1/10 only the second is selected, but the
filter keeps both entries, and at the score threshold one half the filtered evaluator counts a false positive. -/
theorem C122_doubled_violation : ¬ FpOfSelected := by
  intro h
  have hst : StoredSorted (Loader.init.addAll doubled).rows [(Loader.init.addAll doubled).rows.flatten] := by
    have := storedSorted_mem (Loader.init.addAll doubled).rows
    have e : (Loader.init.addAll doubled).rows.flatten = sortBy fKey (Loader.init.addAll doubled).rows.flatten := by
      unfold sortBy
      rw [List.mergeSort_of_pairwise]
      decide +kernel
    rw [← e] at this
    exact this
  have hst' : StoredSorted (Loader.init.addAll undoubled).rows [(Loader.init.addAll undoubled).rows.flatten] := by
    have := storedSorted_mem (Loader.init.addAll undoubled).rows
    have e : (Loader.init.addAll undoubled).rows.flatten = sortBy fKey (Loader.init.addAll undoubled).rows.flatten := by
      unfold sortBy
      rw [List.mergeSort_of_pairwise]
      decide +kernel
    rw [← e] at this
    exact this
  have hft : StoredSorted (filterTables doubtful.d doubtful.g doubtful.p [(Loader.init.addAll doubled).rows.flatten])
      [(filterTables doubtful.d doubtful.g doubtful.p [(Loader.init.addAll doubled).rows.flatten]).flatten] := by
    have := storedSorted_mem (filterTables doubtful.d doubtful.g doubtful.p [(Loader.init.addAll doubled).rows.flatten])
    have e : (filterTables doubtful.d doubtful.g doubtful.p [(Loader.init.addAll doubled).rows.flatten]).flatten =
        sortBy fKey (filterTables doubtful.d doubtful.g doubtful.p [(Loader.init.addAll doubled).rows.flatten]).flatten := by
      unfold sortBy
      rw [List.mergeSort_of_pairwise]
      decide +kernel
    rw [← e] at this
    exact this
  have hS : SizesOk (Loader.init.addAll doubled) := ⟨by decide +kernel, by decide +kernel, by decide +kernel, by decide +kernel⟩
  have hS' : SizesOk (Loader.init.addAll undoubled) := ⟨by decide +kernel, by decide +kernel, by decide +kernel, by decide +kernel⟩
  have key := h ⟨doubled, [(Loader.init.addAll doubled).rows.flatten], [_], hst, by rw [List.flatten_singleton]; exact rankedOf_mem _⟩
    ⟨undoubled, [(Loader.init.addAll undoubled).rows.flatten], [_], hst', by rw [List.flatten_singleton]; exact rankedOf_mem _⟩
    (by refine ⟨?_, ?_, ?_⟩ <;> simp [doubled]) hS hS' doubtful doubtful_dataset.symm hft
    (chunks := [_]) (by rw [List.flatten_singleton]; exact rankedOf_mem _) (1 / 2) (1 / 2) "cat"
  unfold Built.fp at key
  dsimp only at key
  rw [rankTable_sorted_rows (by decide +kernel), rankTable_sorted_rows (by decide +kernel)] at key
  revert key
  decide +kernel

/-! ## The hypotheses can be met -/

/-- Two images: a cat and a dog with a prediction that names both and a second cat, and an image with another cat. -/
def mixed : History :=
  [(⟨"A", [⟨"g", ["cat"], [], ""⟩, ⟨"h", ["dog"], [], ""⟩], [⟨"p", ["cat", "dog"], [4 / 10, 9 / 10], ""⟩, ⟨"q", ["cat"], [8 / 10], ""⟩], ""⟩, fun _ _ => 7 / 10),
    (⟨"B", [⟨"k", ["cat"], [], ""⟩], [], ""⟩, fun _ _ => 0)]

/-- The first image, its cats among the ground truths, and predictions with a score above one half. -/
def catsOfA : Asks := ⟨fun u => decide (u = "A"), fun _ _ l => decide (l = some "cat"), fun _ _ _ s => decide (1 / 2 < s)⟩

/-- What is selected: one image with one cat, a dog and a cat predicted. The evaluators exist, with the filtered one. -/
example : HistoryOk mixed ∧ DistinctLabels mixed ∧ ((catsOfA.dataset mixed).map (fun x => (x.1.uid, x.1.gts.map Ann.labels, x.1.pds.map Ann.labels)) =
      [("A", [["cat"]], [["dog"], ["cat"]])]) ∧
    ∃ e e' : Built, e.calls = [mixed] ∧ e'.calls = [catsOfA.dataset mixed] ∧ SizesOk (Loader.init.addAll e.calls) ∧
      SizesOk (Loader.init.addAll e'.calls) ∧ e'.calls.flatten = catsOfA.dataset e.calls.flatten ∧
      ∃ ft chunks, StoredSorted (filterTables catsOfA.d catsOfA.g catsOfA.p e.tables) ft ∧ RankedOf (rowsIn ft) (List.flatten chunks) := by
  obtain ⟨e, he⟩ := built_exists [mixed]
  obtain ⟨e', he'⟩ := built_exists [catsOfA.dataset mixed]
  refine ⟨⟨by simp [mixed], by simp [mixed], ?_⟩, by simp [DistinctLabels, mixed], by decide +kernel, e, e', he, he', ?_, ?_, ?_, _,
    [rankTable ((sortBy fKey (filterTables catsOfA.d catsOfA.g catsOfA.p e.tables).flatten).map FRow.row)], storedSorted_mem _, ?_⟩
  · intro x hx p g
    rcases List.mem_pair.1 hx with rfl | rfl <;> dsimp only <;> constructor <;> norm_num
  · rw [he]; exact ⟨by decide +kernel, by decide +kernel, by decide +kernel, by decide +kernel⟩
  · rw [he']; exact ⟨by decide +kernel, by decide +kernel, by decide +kernel, by decide +kernel⟩
  · rw [he, he', List.flatten_singleton, List.flatten_singleton]
  · rw [List.flatten_singleton]; exact rankedOf_mem _

end Verif.Detection
