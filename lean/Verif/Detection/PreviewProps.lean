import Verif.Detection.ComposeProps
import Verif.Detection.InfoProps

/-!
# C97 for detection: `get_info` with conditions previews `filter` with the same conditions
-/

namespace Verif.Detection

/-- `EvaluatorInfo` (`shared.py` 12-19) without the metadata fields, which are copied. -/
structure Info where
  datums : Nat
  gts : Nat
  pds : Nat
  labels : Nat
  rows : Nat
deriving DecidableEq, Repr

/-- `Evaluator.get_info` (`evaluator.py` 230-250). The number of rows is that of the reader, whatever the conditions. -/
def EvalState.getInfo (e : EvalState) (d g p : Option Expr) : Info :=
  let c := extractCounts d g p e.tables
  ⟨c.1, c.2.1, c.2.2, e.labels.length, e.tables.flatten.length⟩

/-- The evaluator that `filter` returns (`evaluator.py` 293-408): the cache holds the filtered tables in some layout, and the labels are those of the
evaluator that is filtered (`index_to_label_override`). -/
structure IsFiltered (e : EvalState) (d g p : Option Expr) (e' : EvalState) : Prop where
  tables : Stored (filterTables d g p e.tables) e'.tables
  labels : e'.labels = e.labels

theorem dedup_same {l m : List Int} (h : ∀ z, z ∈ l ↔ z ∈ m) : l.dedup.length = m.dedup.length :=
  dedup_length_of_mem (List.nodup_dedup m) (fun z => by rw [List.mem_dedup]; exact h z)

theorem filtered_gt_ids {d g p : Option Expr} {tables t' : List (List FRow)} (h : Stored (filterTables d g p tables) t') (i : Int) (hi : 0 ≤ i) :
    (∃ x ∈ t'.flatten, x.row.gt = i) ↔ ∃ r ∈ tables.flatten, Holds d r ∧ Holds g r ∧ r.row.gt = i := by
  constructor
  · rintro ⟨x, hx, rfl⟩
    obtain ⟨tbl, ht, hx⟩ := (mem_filtered h x).1 hx
    obtain ⟨r, hr, hd, vg, vp, h1, _, _, rfl⟩ := (mem_filterTable d g p tbl x).1 hx
    cases vg with
    | false => simp [clear] at hi
    | true =>
      obtain ⟨r', hr', hf, hd', hg'⟩ := h1.1 rfl
      exact ⟨r', List.mem_flatten.2 ⟨tbl, ht, hr'⟩, hd', hg', by simpa [clear] using hf.2.1⟩
  · rintro ⟨r, hr, hd, hg, rfl⟩
    obtain ⟨tbl, ht, hr⟩ := List.mem_flatten.1 hr
    obtain ⟨vg, vp, h1, h2⟩ := exists_masks (GtAsked d g tbl r.row.datum r.row.gt r.row.gl) (PdAsked d p tbl r.row.datum r.row.pd r.row.pl)
    have hvg : vg = true := h1.2 ⟨r, hr, ⟨rfl, rfl, rfl⟩, hd, hg⟩
    refine ⟨clear vg vp r, (mem_filtered h _).2 ⟨tbl, ht, (mem_filterTable d g p tbl _).2 ⟨r, hr, hd, vg, vp, h1, h2, Or.inl ⟨hvg, hi⟩, rfl⟩⟩, ?_⟩
    rw [hvg]
    rfl

theorem filtered_pd_ids {d g p : Option Expr} {tables t' : List (List FRow)} (h : Stored (filterTables d g p tables) t') (i : Int) (hi : 0 ≤ i) :
    (∃ x ∈ t'.flatten, x.row.pd = i) ↔ ∃ r ∈ tables.flatten, Holds d r ∧ Holds p r ∧ r.row.pd = i := by
  constructor
  · rintro ⟨x, hx, rfl⟩
    obtain ⟨tbl, ht, hx⟩ := (mem_filtered h x).1 hx
    obtain ⟨r, hr, hd, vg, vp, _, h2, _, rfl⟩ := (mem_filterTable d g p tbl x).1 hx
    cases vp with
    | false => simp [clear] at hi
    | true =>
      obtain ⟨r', hr', hf, hd', hp'⟩ := h2.1 rfl
      exact ⟨r', List.mem_flatten.2 ⟨tbl, ht, hr'⟩, hd', hp', by simpa [clear] using hf.2.1⟩
  · rintro ⟨r, hr, hd, hp, rfl⟩
    obtain ⟨tbl, ht, hr⟩ := List.mem_flatten.1 hr
    obtain ⟨vg, vp, h1, h2⟩ := exists_masks (GtAsked d g tbl r.row.datum r.row.gt r.row.gl) (PdAsked d p tbl r.row.datum r.row.pd r.row.pl)
    have hvp : vp = true := h2.2 ⟨r, hr, ⟨rfl, rfl, rfl⟩, hd, hp⟩
    refine ⟨clear vg vp r, (mem_filtered h _).2 ⟨tbl, ht, (mem_filterTable d g p tbl _).2 ⟨r, hr, hd, vg, vp, h1, h2, Or.inr ⟨hvp, hi⟩, rfl⟩⟩, ?_⟩
    rw [hvp]
    rfl

theorem loader_owner {calls : List History} {tables : List (List FRow)} (h : Stored (Loader.init.addAll calls).rows tables) :
    (∀ x ∈ tables.flatten, ∀ y ∈ tables.flatten, 0 ≤ x.row.gt → x.row.gt = y.row.gt → x.row.datum = y.row.datum) ∧
    (∀ x ∈ tables.flatten, ∀ y ∈ tables.flatten, 0 ≤ x.row.pd → x.row.pd = y.row.pd → x.row.datum = y.row.datum) := by
  have ids := fun k k' x x' (hk : calls.flatten[k]? = some x) (hk' : calls.flatten[k']? = some x') g g' =>
    C34_ids (g := g) (g' := g') calls.flatten hk hk'
  constructor
  · intro x hx y hy h0 he
    obtain ⟨k, xx, hk, hr⟩ := (mem_stored h x).1 hx
    obtain ⟨k', yy, hk', hr'⟩ := (mem_stored h y).1 hy
    rcases hr.gtId with e | ⟨g, hg, e⟩
    · omega
    rcases hr'.gtId with e' | ⟨g', hg', e'⟩
    · omega
    rw [hr.datum, hr'.datum, ((ids k k' xx yy hk hk' g g').1 hg hg' (by omega)).1]
  · intro x hx y hy h0 he
    obtain ⟨k, xx, hk, hr⟩ := (mem_stored h x).1 hx
    obtain ⟨k', yy, hk', hr'⟩ := (mem_stored h y).1 hy
    rcases hr.pdId with e | ⟨g, hg, e⟩
    · omega
    rcases hr'.pdId with e' | ⟨g', hg', e'⟩
    · omega
    rw [hr.datum, hr'.datum, ((ids k k' xx yy hk hk' g g').2 hg hg' (by omega)).1]

theorem filtered_origin {d g p : Option Expr} {tables t' : List (List FRow)} (h : Stored (filterTables d g p tables) t') {x : FRow}
    (hx : x ∈ t'.flatten) : ∃ r ∈ tables.flatten, Holds d r ∧ x.row.datum = r.row.datum ∧ (0 ≤ x.row.gt → x.row.gt = r.row.gt) ∧
      (0 ≤ x.row.pd → x.row.pd = r.row.pd) := by
  obtain ⟨tbl, ht, hx⟩ := (mem_filtered h x).1 hx
  obtain ⟨r, hr, hd, vg, vp, _, _, _, rfl⟩ := (mem_filterTable d g p tbl x).1 hx
  refine ⟨r, List.mem_flatten.2 ⟨tbl, ht, hr⟩, hd, rfl, ?_, ?_⟩ <;> cases vg <;> cases vp <;> simp [clear]

/-- The numbers of the filtered evaluator. -/
theorem filtered_counts {d g p : Option Expr} {tables t' : List (List FRow)} (h : Stored (filterTables d g p tables) t')
    (ha : Aligned (rowsIn tables))
    (hg : ∀ x ∈ tables.flatten, ∀ y ∈ tables.flatten, 0 ≤ x.row.gt → x.row.gt = y.row.gt → x.row.datum = y.row.datum)
    (hp : ∀ x ∈ tables.flatten, ∀ y ∈ tables.flatten, 0 ≤ x.row.pd → x.row.pd = y.row.pd → x.row.datum = y.row.datum) :
    extractCounts none none none t' = ((t'.flatten.map (fun r => r.row.datum)).dedup.length,
       ((tables.flatten.filter (fun r => decide (Holds d r ∧ Holds g r ∧ 0 ≤ r.row.gt))).map (fun r => r.row.gt)).dedup.length,
       ((tables.flatten.filter (fun r => decide (Holds d r ∧ Holds p r ∧ 0 ≤ r.row.pd))).map (fun r => r.row.pd)).dedup.length) := by
  have hnone : ∀ r : FRow, Holds none r := fun r f hf => by cases hf
  rw [C55_counts none none none (filtered_aligned h ha)]
  · refine Prod.ext ?_ (Prod.ext ?_ ?_)
    · apply dedup_same
      intro z
      simp [hnone]
    · apply dedup_same
      intro z
      simp only [List.mem_map, List.mem_filter, decide_eq_true_eq, hnone, true_and]
      constructor
      · rintro ⟨x, ⟨hx, h0⟩, rfl⟩
        obtain ⟨r, hr, hd, hg, e⟩ := (filtered_gt_ids h x.row.gt h0).1 ⟨x, hx, rfl⟩
        exact ⟨r, ⟨hr, hd, hg, by omega⟩, e⟩
      · rintro ⟨r, ⟨hr, hd, hg, h0⟩, rfl⟩
        obtain ⟨x, hx, e⟩ := (filtered_gt_ids h r.row.gt h0).2 ⟨r, hr, hd, hg, rfl⟩
        exact ⟨x, ⟨hx, by omega⟩, e⟩
    · apply dedup_same
      intro z
      simp only [List.mem_map, List.mem_filter, decide_eq_true_eq, hnone, true_and]
      constructor
      · rintro ⟨x, ⟨hx, h0⟩, rfl⟩
        obtain ⟨r, hr, hd, hp, e⟩ := (filtered_pd_ids h x.row.pd h0).1 ⟨x, hx, rfl⟩
        exact ⟨r, ⟨hr, hd, hp, by omega⟩, e⟩
      · rintro ⟨r, ⟨hr, hd, hp, h0⟩, rfl⟩
        obtain ⟨x, hx, e⟩ := (filtered_pd_ids h r.row.pd h0).2 ⟨r, hr, hd, hp, rfl⟩
        exact ⟨x, ⟨hx, by omega⟩, e⟩
  · intro x hx y hy h0 he
    obtain ⟨r, hr, _, e1, e2, _⟩ := filtered_origin h hx
    obtain ⟨r', hr', _, e1', e2', _⟩ := filtered_origin h hy
    rw [e1, e1']
    exact hg r hr r' hr' (by rw [← e2 h0]; exact h0) (by rw [← e2 h0, ← e2' (he ▸ h0)]; exact he)
  · intro x hx y hy h0 he
    obtain ⟨r, hr, _, e1, _, e2⟩ := filtered_origin h hx
    obtain ⟨r', hr', _, e1', _, e2'⟩ := filtered_origin h hy
    rw [e1, e1']
    exact hp r hr r' hr' (by rw [← e2 h0]; exact h0) (by rw [← e2 h0, ← e2' (he ▸ h0)]; exact he)

/-- **C97 (detection, partial).** `get_info` with conditions gives the numbers of ground truths, predictions and labels that the evaluator returned
by `filter` with the same conditions reports, whatever the conditions and the layout of the two caches. The number of images is at least that of
the filtered evaluator, and the same if each image that satisfies the condition on datums keeps an annotation. Missing: the number of images
otherwise (`C97_datums_violation`), and the number of rows (`C97_rows_violation`). -/
theorem C97_detection_partial {calls : List History} {e e' : EvalState} (h : Stored (Loader.init.addAll calls).rows e.tables) (d g p : Option Expr)
    (hf : IsFiltered e d g p e') :
    (e'.getInfo none none none).gts = (e.getInfo d g p).gts ∧ (e'.getInfo none none none).pds = (e.getInfo d g p).pds ∧
    (e'.getInfo none none none).labels = (e.getInfo d g p).labels ∧ (e'.getInfo none none none).datums ≤ (e.getInfo d g p).datums ∧
    ((∀ r ∈ e.tables.flatten, Holds d r → ∃ r' ∈ e.tables.flatten, r'.row.datum = r.row.datum ∧ Holds d r' ∧
        ((Holds g r' ∧ 0 ≤ r'.row.gt) ∨ (Holds p r' ∧ 0 ≤ r'.row.pd))) → (e'.getInfo none none none).datums = (e.getInfo d g p).datums) := by
  obtain ⟨hg, hp⟩ := loader_owner h
  have ha := (holding_of_stored h).aligned
  have h1 := C55_counts d g p ha hg hp
  have h2 := filtered_counts hf.tables ha hg hp
  unfold EvalState.getInfo
  dsimp only
  rw [h1, h2]
  refine ⟨rfl, rfl, by rw [hf.labels], ?_, fun hk => ?_⟩
  · dsimp only
    apply List.Subperm.length_le
    apply List.subperm_of_subset (List.nodup_dedup _)
    intro z hz
    rw [List.mem_dedup, List.mem_map] at hz ⊢
    obtain ⟨x, hx, rfl⟩ := hz
    obtain ⟨r, hr, hd, e1, _⟩ := filtered_origin hf.tables hx
    exact ⟨r, List.mem_filter.2 ⟨hr, by simpa using hd⟩, e1.symm⟩
  · dsimp only
    apply dedup_same
    intro z
    rw [List.mem_map, List.mem_map]
    constructor
    · rintro ⟨x, hx, rfl⟩
      obtain ⟨r, hr, hd, e1, _⟩ := filtered_origin hf.tables hx
      exact ⟨r, List.mem_filter.2 ⟨hr, by simpa using hd⟩, e1.symm⟩
    · rintro ⟨r, hr, rfl⟩
      rw [List.mem_filter, decide_eq_true_eq] at hr
      obtain ⟨r', hr', ed, hd', hkeep⟩ := hk r hr.1 hr.2
      rcases hkeep with ⟨h3, h0⟩ | ⟨h3, h0⟩
      · obtain ⟨x, hx, ex⟩ := (filtered_gt_ids hf.tables r'.row.gt h0).2 ⟨r', hr', hd', h3, rfl⟩
        obtain ⟨r'', hr'', _, e1, e2, _⟩ := filtered_origin hf.tables hx
        refine ⟨x, hx, ?_⟩
        rw [e1, ← ed]
        exact (hg r' hr' r'' hr'' h0 (by rw [← ex]; exact e2 (by omega))).symm
      · obtain ⟨x, hx, ex⟩ := (filtered_pd_ids hf.tables r'.row.pd h0).2 ⟨r', hr', hd', h3, rfl⟩
        obtain ⟨r'', hr'', _, e1, _, e2⟩ := filtered_origin hf.tables hx
        refine ⟨x, hx, ?_⟩
        rw [e1, ← ed]
        exact (hp r' hr' r'' hr'' h0 (by rw [← ex]; exact e2 (by omega))).symm

/-- **C97 (values).** What the numbers of `get_info` are, for any conditions: the images, ground truths and predictions with a row that satisfies the
conditions, and all rows that were written. -/
theorem C97_detection_values {calls : List History} {e : EvalState} (h : Stored (Loader.init.addAll calls).rows e.tables) (d g p : Option Expr) :
    (∃ ids : List Int, ids.Nodup ∧ (e.getInfo d g p).datums = ids.length ∧ ∀ z, z ∈ ids ↔ ∃ r ∈ e.tables.flatten, Holds d r ∧ r.row.datum = z) ∧
    (∃ ids : List Int, ids.Nodup ∧ (e.getInfo d g p).gts = ids.length ∧
      ∀ z, z ∈ ids ↔ 0 ≤ z ∧ ∃ r ∈ e.tables.flatten, Holds d r ∧ Holds g r ∧ r.row.gt = z) ∧
    (∃ ids : List Int, ids.Nodup ∧ (e.getInfo d g p).pds = ids.length ∧
      ∀ z, z ∈ ids ↔ 0 ≤ z ∧ ∃ r ∈ e.tables.flatten, Holds d r ∧ Holds p r ∧ r.row.pd = z) ∧
    (e.getInfo d g p).rows = (Loader.init.addAll calls).rows.flatten.length := by
  obtain ⟨hg, hp⟩ := loader_owner h
  have h1 := C55_counts d g p (holding_of_stored h).aligned hg hp
  unfold EvalState.getInfo
  dsimp only
  rw [h1]
  refine ⟨⟨_, List.nodup_dedup _, rfl, fun z => ?_⟩, ⟨_, List.nodup_dedup _, rfl, fun z => ?_⟩, ⟨_, List.nodup_dedup _, rfl, fun z => ?_⟩,
    (stored_flatten h).length_eq⟩
  · simp only [List.mem_dedup, List.mem_map, List.mem_filter, decide_eq_true_eq, and_assoc]
  · simp only [List.mem_dedup, List.mem_map, List.mem_filter, decide_eq_true_eq]
    constructor
    · rintro ⟨r, ⟨hr, h2, h3, h4⟩, rfl⟩
      exact ⟨h4, r, hr, h2, h3, rfl⟩
    · rintro ⟨h4, r, hr, h2, h3, rfl⟩
      exact ⟨r, ⟨hr, h2, h3, h4⟩, rfl⟩
  · simp only [List.mem_dedup, List.mem_map, List.mem_filter, decide_eq_true_eq]
    constructor
    · rintro ⟨r, ⟨hr, h2, h3, h4⟩, rfl⟩
      exact ⟨h4, r, hr, h2, h3, rfl⟩
    · rintro ⟨h4, r, hr, h2, h3, rfl⟩
      exact ⟨r, ⟨hr, h2, h3, h4⟩, rfl⟩

/-- Two images, one with a cat, one with a dog. -/
def catAndDog : List History := [[(⟨"a", [⟨"g", ["cat"], [], ""⟩], [], ""⟩, fun _ _ => 0), (⟨"b", [⟨"h", ["dog"], [], ""⟩], [], ""⟩, fun _ _ => 0)]]

/-- Keep the cats. -/
def catsOnly : Option Expr := some (fun r => decide (r.gtLabel = some "cat"))

theorem catAndDog_filtered : IsFiltered ⟨[(Loader.init.addAll catAndDog).rows.flatten], [], [(0, "cat"), (1, "dog")]⟩ none catsOnly none
    ⟨[filterTable catsOnly none (Loader.init.addAll catAndDog).rows.flatten], [], [(0, "cat"), (1, "dog")]⟩ := by
  refine ⟨⟨[[filterTable catsOnly none (Loader.init.addAll catAndDog).rows.flatten]], ?_, .cons (by simp) .nil⟩, rfl⟩
  decide +kernel

/-- **C97 (images), violation.** Keeping the cats: `get_info` announces two images, the filtered evaluator has one. -/
theorem C97_datums_violation : ∃ e e' : EvalState, Stored (Loader.init.addAll catAndDog).rows e.tables ∧ IsFiltered e none catsOnly none e' ∧
    (e.getInfo none catsOnly none).datums = 2 ∧ (e'.getInfo none none none).datums = 1 :=
  ⟨_, _, ⟨[(Loader.init.addAll catAndDog).rows], by decide +kernel, .cons (by simp) .nil⟩, catAndDog_filtered, by decide +kernel, by decide +kernel⟩

/-- **C97 (rows), violation.** The number of rows of `get_info` does not follow the conditions. -/
theorem C97_rows_violation : ∃ e e' : EvalState, Stored (Loader.init.addAll catAndDog).rows e.tables ∧ IsFiltered e none catsOnly none e' ∧
    (e.getInfo none catsOnly none).rows = 2 ∧ (e'.getInfo none none none).rows = 1 :=
  ⟨_, _, ⟨[(Loader.init.addAll catAndDog).rows], by decide +kernel, .cons (by simp) .nil⟩, catAndDog_filtered, by decide +kernel, by decide +kernel⟩

/-- The condition of the last part of `C97_detection_partial` holds when each image keeps an annotation: here the second image is removed by the
condition on datums, and the first one keeps its cat. -/
example : ∀ r ∈ (Loader.init.addAll catAndDog).rows.flatten, Holds (some (fun r => decide (r.datumUid = "a"))) r →
    ∃ r' ∈ (Loader.init.addAll catAndDog).rows.flatten, r'.row.datum = r.row.datum ∧ Holds (some (fun r => decide (r.datumUid = "a"))) r' ∧
      ((Holds catsOnly r' ∧ 0 ≤ r'.row.gt) ∨ (Holds none r' ∧ 0 ≤ r'.row.pd)) := by
  decide +kernel

end Verif.Detection
