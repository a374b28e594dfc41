import Verif.Segmentation.ComposeProps

/-!
# C97 for segmentation: `get_info` with conditions previews `filter` with the same conditions
-/

namespace Verif.Segmentation

/-- `EvaluatorInfo` (`shared.py` 11-19) without the metadata fields, which are copied. -/
structure Info where
  rows : Nat
  datums : Nat
  labels : Nat
  pixels : Nat
  gtPixels : Nat
  pdPixels : Nat
deriving DecidableEq, Repr

/-- `Evaluator.get_info` (`evaluator.py` 168-189). -/
def Evaluator.getInfo (e : Evaluator) (d g p : Option Expr) : Info :=
  let c := extractCounts d g p e.tables
  ⟨e.tables.flatten.length, c.1, e.labels.length, c.2.1, c.2.2.1, c.2.2.2⟩

/-- The evaluator that `filter` returns (`evaluator.py` 238-335): the rows are written one table after the other, and the labels are those of the
evaluator that is filtered (`index_to_label_override`). -/
structure IsFiltered (e : Evaluator) (d g p : Option Expr) (e' : Evaluator) : Prop where
  tables : e'.tables.flatten.Perm (filterTables d g p e.tables).flatten
  labels : e'.labels = e.labels

/-- A sum of counts over tables. -/
theorem sum_tables (q : SRow → Bool) (tables : List (List SRow)) (h : (tables.flatten.map SRow.count).sum < 2 ^ 64) :
    (tables.map (fun t => u64 (((t.filter q).map SRow.count).sum : Nat))).sum = ((tables.flatten.filter q).map SRow.count).sum := by
  induction tables with
  | nil => rfl
  | cons t ts ih =>
    rw [List.flatten_cons, List.map_append, List.sum_append] at h
    have hle : ((t.filter q).map SRow.count).sum ≤ (t.map SRow.count).sum :=
      (List.Sublist.map SRow.count List.filter_sublist).sum_le_sum (fun _ _ => Nat.zero_le _)
    rw [List.map_cons, List.sum_cons, ih (by omega), u64_small (by omega), List.flatten_cons, List.filter_append, List.map_append, List.sum_append]

theorem counts_flat (d g p : Option Expr) {tables : List (List SRow)} (h : (tables.flatten.map SRow.count).sum < 2 ^ 64) :
    (extractCounts d g p tables).2 = (((tables.flatten.filter (valueOf d)).map SRow.count).sum,
      ((tables.flatten.filter (fun r => valueOf d r && valueOf g r && decide (0 ≤ r.gl))).map SRow.count).sum,
      ((tables.flatten.filter (fun r => valueOf d r && valueOf p r && decide (0 ≤ r.pl))).map SRow.count).sum) := by
  have key : ∀ q q' : SRow → Bool, (∀ r, q' r = (q r && valueOf d r)) →
      ((tables.map (readTable d)).map (fun t => u64 (((t.filter q).map SRow.count).sum : Nat))).sum = ((tables.flatten.filter q').map SRow.count).sum := by
    intro q q' h'
    rw [← sum_tables q' tables h, List.map_map]
    congr 1
    apply List.map_congr_left
    intro t _
    rw [Function.comp_apply, readTable_value, List.filter_filter]
    rw [List.filter_congr (fun r _ => (h' r).symm)]
  refine Prod.ext ?_ (Prod.ext ?_ ?_)
  · refine Eq.trans ?_ (key (fun _ => true) (valueOf d) (fun r => (Bool.true_and _).symm))
    show ((tables.map (readTable d)).map (fun t => u64 ((t.map SRow.count).sum : Nat))).sum = _
    simp only [List.filter_true]
  · refine Eq.trans ?_ (key (fun r => decide (0 ≤ r.gl) && valueOf g r) _ (fun r => by cases valueOf d r <;> cases valueOf g r <;> simp))
    show ((tables.map (readTable d)).map (fun t => u64 ((((readTable g t).filter (fun r => decide (r.gl ≥ 0))).map SRow.count).sum : Nat))).sum = _
    simp only [readTable_value, List.filter_filter, ge_iff_le]
  · refine Eq.trans ?_ (key (fun r => decide (0 ≤ r.pl) && valueOf p r) _ (fun r => by cases valueOf d r <;> cases valueOf p r <;> simp))
    show ((tables.map (readTable d)).map (fun t => u64 ((((readTable p t).filter (fun r => decide (r.pl ≥ 0))).map SRow.count).sum : Nat))).sum = _
    simp only [readTable_value, List.filter_filter, ge_iff_le]

/-- **C97 (segmentation, partial).** For conditions that look at their side only, `get_info` with conditions gives the pixels, ground truth pixels,
prediction pixels and labels that the evaluator returned by `filter` with the same conditions reports. The number of pixels is the same for any
conditions, and so is the number of images if the filtered rows are in tables as they were. Missing: other conditions
(`C97_segmentation_violation`), other tables (`C55_datums_segmentation_violation`) and the number of rows if there is a condition on datums (`C97_segmentation_rows_violation`). -/
theorem C97_segmentation_partial {e e' : Evaluator} {d g p : Option Expr} (hs : (e.tables.flatten.map SRow.count).sum < 2 ^ 64)
    (hf : IsFiltered e d g p e') :
    (e'.getInfo none none none).labels = (e.getInfo d g p).labels ∧ (e'.getInfo none none none).pixels = (e.getInfo d g p).pixels ∧
    (AboutGts g e.tables.flatten → AboutPds p e.tables.flatten →
      (e'.getInfo none none none).gtPixels = (e.getInfo d g p).gtPixels ∧ (e'.getInfo none none none).pdPixels = (e.getInfo d g p).pdPixels) ∧
    (e'.tables = filterTables d g p e.tables → (e'.getInfo none none none).datums = (e.getInfo d g p).datums) := by
  obtain ⟨hp, hl⟩ := hf
  have hrows : ∀ t : List SRow, ((filterTable g p t).map SRow.count) = t.map SRow.count ∧ ((filterTable g p t).map SRow.datum) = t.map SRow.datum := by
    intro t
    unfold filterTable
    simp [List.map_map, Function.comp_def]
  have hcount : ((filterTables d g p e.tables).flatten.map SRow.count) = (e.tables.flatten.filter (valueOf d)).map SRow.count := by
    unfold filterTables
    induction e.tables with
    | nil => rfl
    | cons t ts ih =>
      rw [List.map_cons, List.flatten_cons, List.map_append, ih, (hrows _).1, readTable_value, List.flatten_cons, List.filter_append, List.map_append]
  have hsum := (hp.map SRow.count).sum_eq
  rw [hcount] at hsum
  have hle : ((e.tables.flatten.filter (valueOf d)).map SRow.count).sum ≤ (e.tables.flatten.map SRow.count).sum :=
    (List.Sublist.map SRow.count List.filter_sublist).sum_le_sum (fun _ _ => Nat.zero_le _)
  have hs' : (e'.tables.flatten.map SRow.count).sum < 2 ^ 64 := by omega
  have c := counts_flat d g p hs
  have c' := counts_flat none none none hs'
  have ht : ∀ l : List SRow, l.filter (valueOf none) = l := fun l => List.filter_eq_self.2 (fun _ _ => rfl)
  refine ⟨congrArg List.length hl, ?_, ?_, ?_⟩
  · show (extractCounts none none none e'.tables).2.1 = (extractCounts d g p e.tables).2.1
    rw [c, c']
    dsimp only
    rw [ht, hsum]
  · intro hg hpd
    rw [filtered_flatten hg hpd] at hp
    constructor
    · show (extractCounts none none none e'.tables).2.2.1 = (extractCounts d g p e.tables).2.2.1
      rw [c, c']
      dsimp only
      rw [((hp.filter _).map SRow.count).sum_eq, List.filter_map, List.map_map, List.filter_filter]
      congr 1
      have : (SRow.count ∘ stepRow g p) = SRow.count := rfl
      rw [this]
      congr 1
      apply List.filter_congr
      intro r _
      have hn : ∀ y, valueOf none y = true := fun _ => rfl
      simp only [Function.comp_apply, hn, stepRow, clear]
      by_cases h2 : valueOf g r = true <;> cases valueOf d r <;> simp [h2]
    · show (extractCounts none none none e'.tables).2.2.2 = (extractCounts d g p e.tables).2.2.2
      rw [c, c']
      dsimp only
      rw [((hp.filter _).map SRow.count).sum_eq, List.filter_map, List.map_map, List.filter_filter]
      congr 1
      have : (SRow.count ∘ stepRow g p) = SRow.count := rfl
      rw [this]
      congr 1
      apply List.filter_congr
      intro r _
      have hn : ∀ y, valueOf none y = true := fun _ => rfl
      simp only [Function.comp_apply, hn, stepRow, clear]
      by_cases h2 : valueOf p r = true <;> cases valueOf d r <;> simp [h2]
  · intro h
    show (extractCounts none none none e'.tables).1 = (extractCounts d g p e.tables).1
    unfold extractCounts filterTables at *
    dsimp only
    rw [h, List.map_map, List.map_map, List.map_map]
    congr 1
    apply List.map_congr_left
    intro t _
    simp only [Function.comp_def]
    show (Verif.Classification.unique ((filterTable g p (readTable d t)).map SRow.datum)).length = _
    rw [(hrows _).2]

/-- Two images; in the first one a cat, half of it predicted as a dog. -/
def halfDog : List (List SRow) := (Loader.init.addAll [[⟨"d", 2, [⟨[true, true], "cat", none⟩], [⟨[true, false], "dog", none⟩], none⟩],
  [⟨"e", 2, [⟨[true, false], "dog", none⟩], [], none⟩]]).rows

/-- Ground truths that meet a prediction. -/
def touched : Option Expr := some (fun r => decide (0 ≤ r.pl))

/-- The first image. -/
def firstOnly : Option Expr := some (fun r => decide (r.datumUid = "d"))

/-- **C97 (segmentation), violation.** For a condition on ground truths that looks at predictions, `get_info` counts the pixels of the rows that
satisfy it, while `filter` keeps the label in the whole image. -/
theorem C97_segmentation_violation : ∃ e e' : Evaluator, e.tables = halfDog ∧ IsFiltered e none touched none e' ∧
    (e.getInfo none touched none).gtPixels = 1 ∧ (e'.getInfo none none none).gtPixels = 2 :=
  ⟨⟨halfDog, [(0, "cat"), (1, "dog")]⟩, ⟨filterTables none touched none halfDog, [(0, "cat"), (1, "dog")]⟩, rfl, ⟨.refl _, rfl⟩, by decide +kernel,
    by decide +kernel⟩

/-- **C97 (segmentation, rows), violation.** The number of rows of `get_info` does not follow the condition on datums. -/
theorem C97_segmentation_rows_violation : ∃ e e' : Evaluator, e.tables = halfDog ∧ IsFiltered e firstOnly none none e' ∧
    (e'.getInfo none none none).rows < (e.getInfo firstOnly none none).rows :=
  ⟨⟨halfDog, [(0, "cat"), (1, "dog")]⟩, ⟨filterTables firstOnly none none halfDog, [(0, "cat"), (1, "dog")]⟩, rfl, ⟨.refl _, rfl⟩, by decide +kernel⟩

/-- The hypotheses of `C97_segmentation_partial` hold for two images and conditions that remove something. -/
example : (halfDog.flatten.map SRow.count).sum < 2 ^ 64 ∧
    IsFiltered ⟨halfDog, [(0, "cat"), (1, "dog")]⟩ firstOnly (some (fun r => decide (r.gtLabel = some "cat"))) (some (fun r => decide (r.pdLabel = some "cat")))
      ⟨filterTables firstOnly (some (fun r => decide (r.gtLabel = some "cat"))) (some (fun r => decide (r.pdLabel = some "cat"))) halfDog,
        [(0, "cat"), (1, "dog")]⟩ ∧
    AboutGts (some (fun r => decide (r.gtLabel = some "cat"))) halfDog.flatten ∧ AboutPds (some (fun r => decide (r.pdLabel = some "cat"))) halfDog.flatten ∧
    extractCounts firstOnly (some (fun r => decide (r.gtLabel = some "cat"))) (some (fun r => decide (r.pdLabel = some "cat"))) halfDog = (1, 2, 2, 0) :=
  ⟨by decide +kernel, ⟨.refl _, rfl⟩, ⟨by decide +kernel, by decide +kernel⟩, ⟨by decide +kernel, by decide +kernel⟩, by decide +kernel⟩

end Verif.Segmentation
