import Verif.Detection.FilterProps

/-! # C55 and C35 for detection -/

namespace Verif.Detection

open Verif.Cache (sortBy)

/-! ## C55 -/

theorem IsRow.gtId {L : List String} {d : Det} {iou : Nat → Nat → Rat} {k g0 p0 : Nat} {f : FRow} (h : IsRow L d iou k g0 p0 f) :
    f.row.gt = -1 ∨ ∃ g, g < d.gts.length ∧ f.row.gt = ((g0 + g : Nat) : Int) := by
  rcases h with ⟨g, a, hg, _, rfl⟩ | ⟨_, _, _, _, _, _, _, rfl⟩ | ⟨g, a, _, _, glabel, _, _, hg, _, _, hgl, _, rfl⟩
  · exact Or.inr ⟨g, getElem?_lt hg, rfl⟩
  · exact Or.inl rfl
  · exact Or.inr ⟨g, getElem?_lt hg, rfl⟩

theorem IsRow.pdId {L : List String} {d : Det} {iou : Nat → Nat → Rat} {k g0 p0 : Nat} {f : FRow} (h : IsRow L d iou k g0 p0 f) :
    f.row.pd = -1 ∨ ∃ p, p < d.pds.length ∧ f.row.pd = ((p0 + p : Nat) : Int) := by
  rcases h.pd with ⟨e, _⟩ | ⟨p, a, l, hp, _, e, _⟩
  · exact Or.inl e
  · exact Or.inr ⟨p, getElem?_lt hp, e⟩

/-- A detection leaves rows if and only if it has an annotation. -/
theorem row_exists {d : Det} (hd : DetOk d) (L : List String) (iou : Nat → Nat → Rat) (k g0 p0 : Nat) :
    (∃ f, IsRow L d iou k g0 p0 f) ↔ d.gts ≠ [] ∨ d.pds ≠ [] := by
  constructor
  · rintro ⟨f, ⟨g, a, hg, _, rfl⟩ | ⟨p, _, _, _, hp, _, _, rfl⟩ | ⟨g, a, _, _, glabel, _, _, hg, _, _, hgl, _, rfl⟩⟩
    · exact Or.inl (List.ne_nil_of_mem (List.mem_of_getElem? hg))
    · exact Or.inr (List.ne_nil_of_mem (List.mem_of_getElem? hp))
    · exact Or.inl (List.ne_nil_of_mem (List.mem_of_getElem? hg))
  · rintro (h | h)
    · obtain ⟨a, ha⟩ := List.exists_mem_of_ne_nil _ h
      obtain ⟨g, hg, rfl⟩ := List.getElem_of_mem ha
      obtain ⟨r, hr, _⟩ := C34_groundtruths L d iou k g0 p0 hd.valid (fun a ha => (hd.pds a ha).1)
        (List.getElem?_eq_getElem hg) (hd.gts _ ha)
      exact ⟨r, hr⟩
    · obtain ⟨a, ha⟩ := List.exists_mem_of_ne_nil _ h
      obtain ⟨p, hp, rfl⟩ := List.getElem_of_mem ha
      obtain ⟨h1, h2⟩ := hd.pds _ ha
      cases hl : d.pds[p].labels with
      | nil => exact absurd hl h1
      | cons v vs =>
        cases hs : d.pds[p].scores with
        | nil => rw [hl, hs] at h2; simp at h2
        | cons s ss =>
          obtain ⟨r, hr, _⟩ := C34_predictions L d iou k g0 p0 hd.gts (List.getElem?_eq_getElem hp) (label := v) (score := s)
            (by rw [hl, hs]; simp)
          exact ⟨r, hr⟩

/-- Number of detections with an annotation. -/
def annotated (H : History) : Nat := (H.filter (fun x => decide (x.1.gts ≠ [] ∨ x.1.pds ≠ []))).length

/-- **C55 (detection).** For every history, division into files and order of the rows, `get_info` reports
the number of ground truths and of predictions that were added, and the number of detections with an
annotation. -/
theorem C55_info_detection {calls : List History} (hv : ∀ x ∈ calls.flatten, DetOk x.1) {tables : List (List FRow)}
    (h : Stored (Loader.init.addAll calls).rows tables) :
    extractCounts none none none tables =
      (annotated calls.flatten, (calls.flatten.map (fun x => x.1.gts.length)).sum, (calls.flatten.map (fun x => x.1.pds.length)).sum) := by
  have hnone : ∀ r : FRow, Holds none r := fun r f hf => by cases hf
  have ids := fun k k' x x' (hk : calls.flatten[k]? = some x) (hk' : calls.flatten[k']? = some x') g g' =>
    C34_ids (g := g) (g' := g') calls.flatten hk hk'
  rw [C55_counts none none none (holding_of_stored h).aligned]
  · refine Prod.ext ?_ (Prod.ext ?_ ?_)
    · dsimp only
      have : annotated calls.flatten = ((calls.flatten.zipIdx.filter (fun y => decide (y.1.1.gts ≠ [] ∨ y.1.1.pds ≠ []))).map (fun y => ((y.2 : Nat) : Int))).length := by
        rw [List.length_map]
        exact (length_zipIdx_filter calls.flatten (fun x => decide (x.1.gts ≠ [] ∨ x.1.pds ≠ [])) 0).symm
      rw [this]
      apply dedup_length_of_mem
      · apply List.Nodup.map_on _ ((nodup_zipIdx_map _ _).filter _)
        rintro ⟨a, i⟩ ha ⟨b, j⟩ hb he
        have h1 := mem_zipIdx'.1 (List.mem_of_mem_filter ha)
        have h2 := mem_zipIdx'.1 (List.mem_of_mem_filter hb)
        dsimp only at he
        have : i = j := by omega
        subst this
        rw [h1] at h2
        cases h2
        rfl
      · intro z
        rw [List.mem_map, List.mem_map]
        constructor
        · rintro ⟨f, hf, rfl⟩
          obtain ⟨k, x, hk, hr⟩ := (mem_stored h f).1 (List.mem_of_mem_filter hf)
          refine ⟨(x, k), List.mem_filter.2 ⟨mem_zipIdx'.2 hk, ?_⟩, hr.datum.symm⟩
          rw [decide_eq_true_eq]
          exact (row_exists (hv x (List.mem_of_getElem? hk)) _ _ _ _ _).1 ⟨f, hr⟩
        · rintro ⟨⟨x, k⟩, hy, rfl⟩
          rw [List.mem_filter, decide_eq_true_eq] at hy
          have hk := mem_zipIdx'.1 hy.1
          obtain ⟨f, hf⟩ := (row_exists (hv x (List.mem_of_getElem? hk)) (Loader.init.addAll calls).labels x.2 k
            (gtOffset calls.flatten k) (pdOffset calls.flatten k)).2 hy.2
          refine ⟨f, List.mem_filter.2 ⟨(mem_stored h f).2 ⟨k, x, hk, hf⟩, ?_⟩, hf.datum⟩
          rw [decide_eq_true_eq]
          exact hnone f
    · dsimp only
      have := idList_length calls.flatten (fun _ => true) Det.gts (gtOffset calls.flatten) (fun _ => true)
      rw [selected_all] at this
      simp only [List.filter_true] at this
      rw [← this]
      apply dedup_length_of_mem
      · apply idList_nodup
        intro k k' i i' x x' hk hk' hi hi' he
        exact (ids k k' x x' hk hk' i i').1 hi hi' he
      · intro z
        rw [mem_idList, List.mem_map]
        constructor
        · rintro ⟨f, hf, rfl⟩
          rw [List.mem_filter, decide_eq_true_eq] at hf
          obtain ⟨k, x, hk, hr⟩ := (mem_stored h f).1 hf.1
          rcases hr.gtId with e | ⟨g, hg, e⟩
          · omega
          · exact ⟨k, x, g, _, rfl, hk, List.getElem?_eq_getElem hg, rfl, e⟩
        · rintro ⟨k, x, i, a, _, hk, hi, _, rfl⟩
          have hd := hv x (List.mem_of_getElem? hk)
          obtain ⟨r, hr, _, h2, _⟩ := C34_groundtruths (Loader.init.addAll calls).labels x.1 x.2 k (gtOffset calls.flatten k) (pdOffset calls.flatten k)
            hd.valid (fun a ha => (hd.pds a ha).1) hi (hd.gts a (List.mem_of_getElem? hi))
          refine ⟨r, List.mem_filter.2 ⟨(mem_stored h r).2 ⟨k, x, hk, hr⟩, ?_⟩, h2⟩
          rw [decide_eq_true_eq, h2]
          exact ⟨hnone r, hnone r, by omega⟩
    · dsimp only
      have := idList_length calls.flatten (fun _ => true) Det.pds (pdOffset calls.flatten) (fun _ => true)
      rw [selected_all] at this
      simp only [List.filter_true] at this
      rw [← this]
      apply dedup_length_of_mem
      · apply idList_nodup
        intro k k' i i' x x' hk hk' hi hi' he
        exact (ids k k' x x' hk hk' i i').2 hi hi' he
      · intro z
        rw [mem_idList, List.mem_map]
        constructor
        · rintro ⟨f, hf, rfl⟩
          rw [List.mem_filter, decide_eq_true_eq] at hf
          obtain ⟨k, x, hk, hr⟩ := (mem_stored h f).1 hf.1
          rcases hr.pdId with e | ⟨p, hp, e⟩
          · omega
          · exact ⟨k, x, p, _, rfl, hk, List.getElem?_eq_getElem hp, rfl, e⟩
        · rintro ⟨k, x, i, a, _, hk, hi, _, rfl⟩
          have hd := hv x (List.mem_of_getElem? hk)
          have ⟨h1, h2⟩ := hd.pds a (List.mem_of_getElem? hi)
          have : ∃ z, z ∈ a.labels.zip a.scores := by
            apply List.exists_mem_of_ne_nil
            intro he
            have := congrArg List.length he
            rw [List.length_zip, h2, Nat.min_self, List.length_nil] at this
            exact h1 (List.length_eq_zero_iff.1 this)
          obtain ⟨⟨v, s⟩, hz⟩ := this
          obtain ⟨r, hr, _, h2, _⟩ := C34_predictions (Loader.init.addAll calls).labels x.1 x.2 k (gtOffset calls.flatten k) (pdOffset calls.flatten k)
            hd.gts hi hz
          refine ⟨r, List.mem_filter.2 ⟨(mem_stored h r).2 ⟨k, x, hk, hr⟩, ?_⟩, h2⟩
          rw [decide_eq_true_eq, h2]
          exact ⟨hnone r, hnone r, by omega⟩
  · intro x hx y hy h0 he
    obtain ⟨k, xx, hk, hr⟩ := (mem_stored h x).1 hx
    obtain ⟨k', yy, hk', hr'⟩ := (mem_stored h y).1 hy
    rcases hr.gtId with e | ⟨g, hg, e⟩
    · omega
    rcases hr'.gtId with e' | ⟨g', hg', e'⟩
    · omega
    rw [hr.datum, hr'.datum, ((ids k k' xx yy hk hk' g g').1 hg hg' (by omega)).1]
  · intro x hx y hy h0 he
    obtain ⟨k, xx, hk, hr⟩ := (mem_stored h x).1 hx
    obtain ⟨k', yy, hk', hr'⟩ := (mem_stored h y).1 hy
    rcases hr.pdId with e | ⟨g, hg, e⟩
    · omega
    rcases hr'.pdId with e' | ⟨g', hg', e'⟩
    · omega
    rw [hr.datum, hr'.datum, ((ids k k' xx yy hk hk' g g').2 hg hg' (by omega)).1]

/-- **C55 (detection), violation.** Two detections are added, one of them without annotations (an image
without objects and predictions); the number of datums reported is 1. -/
theorem C55_datums_detection_violation :
    let calls : List History := [[(⟨"a", [⟨"g", ["x"], [], ""⟩], [], ""⟩, fun _ _ => 0), (⟨"b", [], [], ""⟩, fun _ _ => 0)]]
    calls.flatten.length = 2 ∧ (∀ x ∈ calls.flatten, DetOk x.1) ∧
    ∀ tables, Stored (Loader.init.addAll calls).rows tables → (extractCounts none none none tables).1 = 1 := by
  intro calls
  have hv : ∀ x ∈ calls.flatten, DetOk x.1 := by
    intro x hx
    simp only [calls, List.flatten_cons, List.flatten_nil, List.append_nil, List.mem_cons, List.not_mem_nil, or_false] at hx
    rcases hx with rfl | rfl
    · exact ⟨by simp, by simp⟩
    · exact ⟨by simp, by simp⟩
  refine ⟨rfl, hv, ?_⟩
  intro tables h
  rw [C55_info_detection hv h]
  rfl

example : (∀ x ∈ sampleCalls.flatten, DetOk x.1) ∧
    Stored (Loader.init.addAll sampleCalls).rows [sortBy (fun f : FRow => rankKey f.row) (Loader.init.addAll sampleCalls).rows.flatten] := by
  refine ⟨?_, stored_mem _ _⟩
  intro x hx
  refine ⟨fun a ha => ?_, fun a ha => sampleCalls_ok.1.pdLabel x hx a ha⟩
  have := sampleCalls_ok.1.gtLabel x hx a ha
  intro he
  rw [he] at this
  simp at this

/-! ## C35 -/

theorem tpTotal_append (t s : Rat) (a b : List (List RRow)) (l : Int) : tpTotal t s (a ++ b) l = tpTotal t s a l + tpTotal t s b l := by
  unfold tpTotal
  rw [List.map_append, List.sum_append]

theorem fpTotal_append (t s : Rat) (a b : List (List RRow)) (l : Int) : fpTotal t s (a ++ b) l = fpTotal t s a l + fpTotal t s b l := by
  unfold fpTotal
  rw [List.map_append, List.sum_append]

/-- Repeated `finalize` on a file cache; `news` are the ranked tables that each call writes. -/
def finalizeAll (b : Builder) (sorted : List (List FRow)) : List (List (List RRow)) → Except FinErr (Builder × EvalState)
  | [] => .error .empty
  | [new] => b.finalize .file sorted new none
  | new :: rest => (b.finalize .file sorted new none).bind (fun x => finalizeAll x.1 sorted rest)

/-- What repeated calls return: the detailed rows and labels of the first call, the ranked rows of all
calls. -/
theorem finalizeAll_ok (sorted : List (List FRow)) (hs : sorted.flatten ≠ []) (news : List (List (List RRow))) (hn : news ≠ [])
    (b : Builder) (hb : b.tables.flatten ≠ []) :
    finalizeAll b sorted news = .ok (⟨sorted, b.ranked ++ news.flatten⟩,
      ⟨sorted, b.ranked ++ news.flatten, Verif.Shared.labelsOf (sorted.map (fun t => t.map labelCols)) none⟩) := by
  induction news generalizing b with
  | nil => exact absurd rfl hn
  | cons new rest ih =>
    have hfin : b.finalize .file sorted new none = .ok (⟨sorted, b.ranked ++ new⟩,
        ⟨sorted, b.ranked ++ new, Verif.Shared.labelsOf (sorted.map (fun t => t.map labelCols)) none⟩) := by
      unfold Builder.finalize
      rw [if_neg (by rw [List.length_eq_zero_iff]; exact hb)]
      rfl
    cases rest with
    | nil =>
      rw [finalizeAll, hfin]
      simp
    | cons r rs =>
      rw [finalizeAll, hfin]
      · show finalizeAll ⟨sorted, b.ranked ++ new⟩ sorted (r :: rs) = _
        rw [ih (by simp) _ hs]
        simp [List.append_assoc]
      · simp

/-- **C35 (detection, files).** The exact effect of `n` calls of `finalize`: no call fails, the detailed
rows and the labels are those of one call, and true and false positives are multiplied by `n`. So one
call gives the counts of C28 and every further call changes them unless they are zero. -/
theorem C35_detection_partial {sorted : List (List FRow)} (hs : sorted.flatten ≠ []) (hc : CacheOk (rowsIn sorted)) {out : List RRow}
    (h : RankedOf (rowsIn sorted) out) (news : List (List (List RRow))) (hn : news ≠ []) (hout : ∀ new ∈ news, new.flatten = out)
    (tables : List (List FRow)) (ht : tables.flatten ≠ []) :
    ∃ b e, finalizeAll ⟨tables, []⟩ sorted news = .ok (b, e) ∧ e.tables = sorted ∧
      e.labels = Verif.Shared.labelsOf (sorted.map (fun t => t.map labelCols)) none ∧
      ∀ (t s : Rat) (l : Int), 0 < t →
        tpTotal t s e.ranked l = news.length * ((out.filter (fun r => decide (Active s l r ∧ Covers t r))).map (fun r => (r.row.datum, r.row.gt))).dedup.length ∧
        tpTotal t s e.ranked l + fpTotal t s e.ranked l = news.length * (out.filter (fun r => decide (Active s l r))).length := by
  refine ⟨_, _, finalizeAll_ok sorted hs news hn ⟨tables, []⟩ ht, rfl, rfl, ?_⟩
  intro t s l h0
  dsimp only
  rw [List.nil_append]
  clear hn
  induction news with
  | nil => simp [tpTotal, fpTotal]
  | cons new rest ih =>
    obtain ⟨i1, i2⟩ := ih (fun new hn => hout new (List.mem_cons_of_mem _ hn))
    have e1 := C28_tp hc h h0 s l new (hout new (by simp))
    have e2 := C28_tp_fp t s l new
    rw [hout new (by simp)] at e2
    rw [List.flatten_cons, tpTotal_append, fpTotal_append, List.length_cons, Nat.add_mul, Nat.add_mul]
    constructor
    · rw [i1, e1]; omega
    · rw [← i2, Nat.one_mul, ← e2]; omega

/-- The cache of one image with one ground truth and one prediction that covers it. -/
def oneRow : FRow := ⟨⟨0, 0, 0, 0, 0, 1, 9 / 10⟩, "d", some "g", some "x", some "p", some "x", []⟩

/-- Its ranked row. -/
def oneRanked : RRow := ⟨⟨0, 0, 0, 0, 0, 1, 9 / 10⟩, 0⟩

theorem oneRanked_eq : rankTable [oneRow.row] = [oneRanked] := by
  unfold rankTable sortBy
  rw [List.mergeSort_singleton]
  decide +kernel

/-- **C35 (detection), violation.** One image with one ground truth that is found by the only prediction.
The first `finalize` gives one true positive, no false positive and no missed ground truth. After the second,
files give two true positives of one ground truth and 2^64 - 1 missed ones; in memory the prediction is
also a false positive. -/
theorem C35_detection_violation :
    let first (k : Backend) := (⟨[[oneRow]], []⟩ : Builder).finalize k [[oneRow]] [rankTable [oneRow.row]] none
    let second (k : Backend) := (first k).bind (fun x => x.1.finalize k [[oneRow]] [rankTable [oneRow.row]] none)
    let counts (r : Except FinErr (Builder × EvalState)) := r.toOption.map (fun x =>
      (tpTotal (1 / 2) 0 x.2.ranked 0, fpTotal (1 / 2) 0 x.2.ranked 0, fnTotal (1 / 2) 0 (rowsIn x.2.tables) x.2.ranked 0))
    RankedOf (rowsIn [[oneRow]]) (rankTable [oneRow.row]) ∧
    (∀ k, counts (first k) = some (1, 0, 0)) ∧
    counts (second .file) = some (2, 0, 2 ^ 64 - 1) ∧ counts (second .memory) = some (1, 1, 0) := by
  intro first second counts
  refine ⟨rankedOf_mem [oneRow.row], ?_, ?_, ?_⟩
  · intro k
    simp only [counts, first, oneRanked_eq]
    cases k <;> decide +kernel
  · simp only [counts, second, first, oneRanked_eq]
    decide +kernel
  · simp only [counts, second, first, oneRanked_eq]
    decide +kernel

/-- The hypotheses of `C35_detection_partial` hold for two calls on this cache. -/
example : ([[oneRow]] : List (List FRow)).flatten ≠ [] ∧ CacheOk (rowsIn [[oneRow]]) ∧ RankedOf (rowsIn [[oneRow]]) (rankTable [oneRow.row]) ∧
    ∀ new ∈ [[rankTable [oneRow.row]], [rankTable [oneRow.row]]], new.flatten = rankTable [oneRow.row] := by
  refine ⟨by simp, ?_, rankedOf_mem _, by simp⟩
  constructor
  · simp [Aligned, rowsIn]
  · simp [rowsIn, oneRow]
  · simp only [rowsIn, List.map_cons, List.map_nil, List.mem_singleton, forall_eq]
    unfold RowOk oneRow
    decide +kernel
  · simp [rowsIn, oneRow]

/-! ## The hypotheses of C33 are met -/

/-- A stored history and a filter of it; the ground truth `g0` is asked for and `g1` is not. -/
example : ∃ tables tables', Stored (Loader.init.addAll sampleCalls).rows tables ∧
    Stored (filterTables (some (fun r => decide (r.datumUid = "d1"))) (some (fun r => decide (r.gtLabel = some "a"))) none tables) tables' ∧
    CacheOk (rowsIn tables) ∧ PairsOk (rowsIn tables).flatten ∧
    (∃ tbl ∈ tables, GtAsked (some (fun r => decide (r.datumUid = "d1"))) (some (fun r => decide (r.gtLabel = some "a"))) tbl 1 0 0) ∧
    ¬ ∃ tbl ∈ tables, ∃ l, GtAsked (some (fun r => decide (r.datumUid = "d1"))) (some (fun r => decide (r.gtLabel = some "a"))) tbl 1 1 l := by
  refine ⟨[sortBy (fun f : FRow => rankKey f.row) (Loader.init.addAll sampleCalls).rows.flatten], _, stored_mem _ _,
    stored_mem _ (fun f : FRow => rankKey f.row), ?_, ?_, ?_, ?_⟩
  · exact cacheOk_of_holding (holding_of_stored (stored_mem _ (fun f : FRow => rankKey f.row))) sampleCalls_ok.1 sampleCalls_ok.2.2.labels
  · exact (pairsOk_of_holding (holding_of_stored (stored_mem _ (fun f : FRow => rankKey f.row))) sampleCalls_ok.1 sampleCalls_ok.2.1
      sampleCalls_ok.2.2.gts sampleCalls_ok.2.2.pds sampleCalls_ok.2.2.datums).1
  · refine ⟨_, List.mem_singleton_self _, ?_⟩
    unfold GtAsked HasGt Holds sortBy
    simp only [(List.mergeSort_perm _ _).mem_iff, Option.some.injEq, forall_eq']
    decide +kernel
  · rintro ⟨tbl, ht, l, h⟩
    rw [List.mem_singleton] at ht
    subst ht
    revert h
    unfold GtAsked HasGt Holds sortBy
    simp only [(List.mergeSort_perm _ _).mem_iff, Option.some.injEq, forall_eq']
    rintro ⟨r, hr, ⟨h1, h2, hl⟩, h3, h4⟩
    clear hl
    revert h4 h3 h2 h1
    revert r
    decide +kernel

end Verif.Detection
