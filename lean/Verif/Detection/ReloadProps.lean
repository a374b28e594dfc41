import Verif.Detection.RefusedProps
import Verif.Detection.ComposeProps

/-!
# C107: a filtered evaluation that is loaded again (`object_detection/evaluator.py` 230-290, 292-413)

`filter` hands the labels of its source to the evaluator it returns (413); `load` without `index_to_label_override` reads the labels from
the filtered rows.
-/

namespace Verif.Detection

open Verif.Shared (extractLabels C50_extract)

/-- Some annotation in the tables has the label. -/
def HasLabel (tables : List (List FRow)) (v : String) : Prop :=
  ∃ r ∈ tables.flatten, (0 ≤ r.row.gt ∧ r.gtLabel = some v) ∨ (0 ≤ r.row.pd ∧ r.pdLabel = some v)

/-- The label of a metric. -/
def DMetric.label? : DMetric → Option String
  | .ap _ _ v | .apOverIous _ _ v | .ar _ _ _ v | .arOverScores _ _ _ v | .prCurve _ _ _ v | .counts _ _ _ v _ _
  | .precision _ v _ _ | .recall _ v _ _ | .f1 _ v _ _ => some v
  | _ => none

/-- A row of the filtered cache is a row of the source with cleared sides. -/
theorem filtered_clear {d g p : Option Expr} {tables tables' : List (List FRow)} (h : Stored (filterTables d g p tables) tables') {x : FRow}
    (hx : x ∈ tables'.flatten) : ∃ r ∈ tables.flatten, ∃ vg vp, x = clear vg vp r := by
  obtain ⟨tbl, htbl, hx⟩ := (mem_filtered h x).1 hx
  rw [mem_filterTable] at hx
  obtain ⟨r, hr, _, vg, vp, _, _, _, rfl⟩ := hx
  exact ⟨r, List.mem_flatten.2 ⟨tbl, htbl, hr⟩, vg, vp, rfl⟩

/-- The label ids of a filtered row: cleared, or the id of the label text. -/
theorem filtered_texts {calls : List History} {d g p : Option Expr} {t1 t2 : List (List FRow)}
    (h1 : Stored (Loader.init.addAll calls).rows t1) (h2 : Stored (filterTables d g p t1) t2) {x : FRow} (hx : x ∈ t2.flatten) :
    ((x.row.gl = -1 ∧ x.row.gt = -1) ∨ ∃ v ∈ (Loader.init.addAll calls).labels, x.gtLabel = some v ∧
      x.row.gl = (Loader.init.addAll calls).labels.idxOf v ∧ 0 ≤ x.row.gt) ∧
    ((x.row.pl = -1 ∧ x.row.pd = -1) ∨ ∃ v ∈ (Loader.init.addAll calls).labels, x.pdLabel = some v ∧
      x.row.pl = (Loader.init.addAll calls).labels.idxOf v ∧ 0 ≤ x.row.pd) := by
  obtain ⟨r, hr, vg, vp, rfl⟩ := filtered_clear h2 hx
  obtain ⟨k, y, hk, hrow⟩ := (mem_stored h1 r).1 hr
  obtain ⟨q1, q2⟩ := hrow.texts
  obtain ⟨l1, l2⟩ := isRow_labels calls hk hrow
  constructor
  · cases vg
    · left; simp [clear]
    · rcases q1 with ⟨_, e1, e2⟩ | ⟨v, e1, e2, e3⟩
      · left; simp [clear, e1, e2]
      · right; exact ⟨v, l1 v e1, by simpa [clear] using e1, by simpa [clear] using e2, by simpa [clear] using e3⟩
  · cases vp
    · left; simp [clear]
    · rcases q2 with ⟨_, e1, e2⟩ | ⟨v, e1, e2, e3⟩
      · left; simp [clear, e1, e2]
      · right; exact ⟨v, l2 v e1, by simpa [clear] using e1, by simpa [clear] using e2, by simpa [clear] using e3⟩

/-- The labels that `load` reads from the filtered cache: those that some annotation in it has, with the ids of the source. -/
theorem reloaded_labels {calls : List History} {d g p : Option Expr} {t1 t2 : List (List FRow)}
    (h1 : Stored (Loader.init.addAll calls).rows t1) (h2 : Stored (filterTables d g p t1) t2) :
    ((tableLabels t2).map Prod.fst).Nodup ∧ ∀ lb : Nat × String, lb ∈ tableLabels t2 ↔
      (Loader.init.addAll calls).labels[lb.1]? = some lb.2 ∧ HasLabel t2 lb.2 := by
  set L := (Loader.init.addAll calls).labels with hL
  have hnd : L.Nodup := (linv_addAll calls).nodup
  have hlab : ∀ v ∈ L, L[L.idxOf v]? = some v := by
    intro v hv
    rw [List.getElem?_eq_getElem (List.idxOf_lt_length_of_mem hv)]
    simp
  have hflat : (t2.map (fun t => t.map labelCols)).flatten = t2.flatten.map labelCols := by rw [List.map_flatten]
  obtain ⟨e1, e2⟩ := C50_extract (f := fun i => (L[i.toNat]?).getD "") (t2.map (fun t => t.map labelCols)) (by
    rw [hflat]
    intro r hr
    obtain ⟨x, hx, rfl⟩ := List.mem_map.1 hr
    obtain ⟨q1, q2⟩ := filtered_texts h1 h2 hx
    simp only [labelCols]
    constructor
    · intro hne
      rcases q1 with ⟨e, _⟩ | ⟨v, hv, a1, a2, _⟩
      · exact absurd e hne
      · rw [a1, a2, Int.toNat_natCast, hlab v hv]
    · intro hne
      rcases q2 with ⟨e, _⟩ | ⟨v, hv, a1, a2, _⟩
      · exact absurd e hne
      · rw [a1, a2, Int.toNat_natCast, hlab v hv])
  set D := extractLabels (t2.map (fun t => t.map labelCols)) with hD
  have hiff : ∀ (i : Int) (s : String), (i, s) ∈ D ↔ 0 ≤ i ∧ L[i.toNat]? = some s ∧ HasLabel t2 s := by
    intro i s
    have hm : (i, s) ∈ D ↔ D.lookup i = some s := by
      constructor
      · intro hx
        rw [List.lookup_eq_some_iff]
        obtain ⟨l1, l2, he⟩ := List.append_of_mem hx
        refine ⟨l1, l2, he, ?_⟩
        intro q hq
        rw [he, List.map_append, List.nodup_append] at e1
        have := e1.2.2 q.1 (List.mem_map_of_mem (f := Prod.fst) hq) i (by simp)
        simpa using this.symm
      · intro hx
        rw [List.lookup_eq_some_iff] at hx
        obtain ⟨l1, l2, he, _⟩ := hx
        rw [he]
        simp
    rw [hm, e2, hflat]
    constructor
    · rintro ⟨⟨hne, r, hr, he⟩, rfl⟩
      obtain ⟨x, hx, rfl⟩ := List.mem_map.1 hr
      obtain ⟨q1, q2⟩ := filtered_texts h1 h2 hx
      simp only [labelCols] at he
      rcases he with rfl | rfl
      · rcases q1 with ⟨e, _⟩ | ⟨v, hv, a1, a2, a3⟩
        · exact absurd e hne
        · rw [a2, Int.toNat_natCast, hlab v hv]
          exact ⟨Int.natCast_nonneg _, rfl, x, hx, Or.inl ⟨a3, a1⟩⟩
      · rcases q2 with ⟨e, _⟩ | ⟨v, hv, a1, a2, a3⟩
        · exact absurd e hne
        · rw [a2, Int.toNat_natCast, hlab v hv]
          exact ⟨Int.natCast_nonneg _, rfl, x, hx, Or.inr ⟨a3, a1⟩⟩
    · rintro ⟨h0, hs, x, hx, hu⟩
      obtain ⟨q1, q2⟩ := filtered_texts h1 h2 hx
      refine ⟨⟨by omega, labelCols x, List.mem_map_of_mem hx, ?_⟩, by rw [hs]; rfl⟩
      obtain ⟨hi, hget⟩ := List.getElem?_eq_some_iff.1 hs
      have hidx : L.idxOf s = i.toNat := by rw [← hget]; exact hnd.idxOf_getElem _ hi
      simp only [labelCols]
      rcases hu with ⟨u1, u2⟩ | ⟨u1, u2⟩
      · left
        rcases q1 with ⟨_, e⟩ | ⟨v, hv, a1, a2, a3⟩
        · omega
        · rw [a1] at u2
          cases u2
          rw [a2, hidx]
          exact Int.toNat_of_nonneg h0
      · right
        rcases q2 with ⟨_, e⟩ | ⟨v, hv, a1, a2, a3⟩
        · omega
        · rw [a1] at u2
          cases u2
          rw [a2, hidx]
          exact Int.toNat_of_nonneg h0
  constructor
  · unfold tableLabels
    rw [List.map_map]
    have hmap : (D.map (Prod.fst ∘ fun x : Int × String => (x.1.toNat, x.2))) = (D.map Prod.fst).map Int.toNat := by
      rw [List.map_map]; rfl
    rw [hmap]
    apply List.Nodup.map_on _ e1
    intro a ha b hb hab
    obtain ⟨x, hx, rfl⟩ := List.mem_map.1 ha
    obtain ⟨y, hy, rfl⟩ := List.mem_map.1 hb
    have ha0 := ((hiff x.1 x.2).1 hx).1
    have hb0 := ((hiff y.1 y.2).1 hy).1
    omega
  · intro lb
    unfold tableLabels
    rw [List.mem_map]
    constructor
    · rintro ⟨x, hx, rfl⟩
      exact ((hiff x.1 x.2).1 hx).2
    · intro hlb
      exact ⟨((lb.1 : Int), lb.2), (hiff _ _).2 ⟨by omega, by simpa using hlb⟩, by simp⟩

/-- The metrics of one label in the report. -/
def ownMetrics (T : List (List Row)) (C : List (List RRow)) (ious scores : List Rat) (lb : Nat × String) : List DMetric :=
  (expectedReport T C [lb] ious scores).all.filter (fun m => m.label?.isSome)

theorem own_label {T : List (List Row)} {C : List (List RRow)} {ious scores : List Rat} {lb : Nat × String} {m : DMetric}
    (h : m ∈ ownMetrics T C ious scores lb) : m.label? = some lb.2 := by
  unfold ownMetrics at h
  obtain ⟨h, hl⟩ := List.mem_filter.1 h
  simp only [Report.all, expectedReport, List.map_cons, List.map_nil, List.flatMap_cons, List.flatMap_nil, List.append_nil, List.mem_append, List.mem_map,
    List.mem_flatMap, List.mem_cons, List.not_mem_nil, or_false] at h
  rcases h with (((((((((((h | h) | h) | h) | h) | h) | h) | h) | h) | h) | h) | h) | h
  all_goals first
    | (obtain ⟨_, _, _, _, rfl⟩ := h; rfl)
    | (obtain ⟨_, _, rfl⟩ := h; first | rfl | (simp [DMetric.label?] at hl))

theorem mem_report {T : List (List Row)} {C : List (List RRow)} {ious scores : List Rat} {labels : List (Nat × String)} {m : DMetric}
    (hm : m.label?.isSome = true) : m ∈ (expectedReport T C labels ious scores).all ↔ ∃ lb ∈ labels, m ∈ ownMetrics T C ious scores lb := by
  unfold ownMetrics
  simp only [List.mem_filter, hm, and_true]
  simp only [Report.all, expectedReport, List.map_cons, List.map_nil, List.flatMap_cons, List.flatMap_nil, List.append_nil, List.mem_append, List.mem_map,
    List.mem_flatMap, List.mem_cons, List.not_mem_nil, or_false]
  cases m <;> simp only [DMetric.label?, Option.isSome_none, Option.isSome_some, Bool.false_eq_true] at hm <;>
    simp only [reduceCtorEq, and_false, exists_false, or_false, false_or] <;>
    grind

/-- A label without ranked rows has average precision 0. -/
theorem apAt_none {T : List (List Row)} {C : List (List RRow)} {l : Int} (h : ∀ r ∈ C.flatten, r.row.pl ≠ l) (t : Rat) : apAt T C t l = 0 := by
  have hc : ∀ (C : List (List RRow)), (∀ r ∈ C.flatten, r.row.pl ≠ l) → (curveOf t (gtCount T l) l C).prec = fun _ => 0 := by
    intro C
    induction C using List.reverseRecOn with
    | nil => intro _; rfl
    | append_singleton done c ih =>
      intro h
      rw [curveOf_snoc]
      have he : c.filter (fun r => decide (r.row.pl = l)) = [] := by
        rw [List.filter_eq_nil_iff]
        intro r hr
        simpa using h r (by simp [hr])
      unfold curveStep
      rw [he]
      show updatePrec (curveOf t (gtCount T l) l done).prec [] = _
      rw [ih (fun r hr => h r (by rw [List.flatten_append]; exact List.mem_append_left _ hr))]
      rfl
  unfold apAt
  rw [hc C h]
  decide +kernel

/-- No label that lost all its annotations has an id below a label that kept one. -/
def NoGap (L : List String) (tables : List (List FRow)) : Prop :=
  ∀ o ∈ L, ∀ v ∈ L, L.idxOf o < L.idxOf v → HasLabel tables v → HasLabel tables o

/-- **C107 (detection).** A filtered evaluation, in any storage layout, loaded without override. If no label that the filter removed has an id below
a label that is left, both evaluators give a report; that of the loaded one has the metrics of the labels that are left, unchanged, and no metrics of
other labels; if all labels are left, the reports hold the same metrics; its mean average precision is the sum of the same average precisions, divided by the number of labels that are left instead of the
number of all labels. -/
theorem C107_detection_partial {calls : List History} (hH : HistoryOk calls.flatten) (hS : SizesOk (Loader.init.addAll calls))
    {d g p : Option Expr} {t1 t2 : List (List FRow)} (h1 : Stored (Loader.init.addAll calls).rows t1) (h2 : Stored (filterTables d g p t1) t2)
    (hne : ∃ v, HasLabel t2 v) (hgap : NoGap (Loader.init.addAll calls).labels t2)
    {chunks : List (List RRow)} (hr : RankedOf (rowsIn t2) chunks.flatten) {order order' : List Rat → List Nat} (ho : IsArgsort order)
    (ho' : IsArgsort order') {ious scores : List Rat} (hi : ious ≠ []) (hs : scores ≠ []) :
    ∃ R A, computePrecisionRecall order (tableLabels t1) (rowsIn t2) chunks ious scores = .ok R ∧
      computePrecisionRecall order' (tableLabels t2) (rowsIn t2) chunks ious scores = .ok A ∧
      (∀ v ∈ (Loader.init.addAll calls).labels, ∀ t ∈ ious, ∃ x, .ap (some x) t v ∈ R.all) ∧
      (∀ m v, m.label? = some v → (m ∈ A.all ↔ m ∈ R.all ∧ HasLabel t2 v)) ∧
      ((∀ v ∈ (Loader.init.addAll calls).labels, HasLabel t2 v) → A.all.Perm R.all) ∧
      ∃ kept : List String, kept.Nodup ∧ (∀ v, v ∈ kept ↔ HasLabel t2 v) ∧
        ∀ t ∈ ious, ∃ x : Rat, .mAP (some (x / (Loader.init.addAll calls).labels.length)) t ∈ R.all ∧ .mAP (some (x / kept.length)) t ∈ A.all := by
  set L := (Loader.init.addAll calls).labels with hL
  have hv : ∀ x ∈ calls.flatten, DetOk x.1 := fun x hx => hH.detOk hx
  obtain ⟨hlen, hk, hlab, hnames⟩ := loaded_labels calls hv h1
  change (tableLabels t1).length = _ at hlen
  change ((tableLabels t1).map Prod.fst).Perm (List.range (tableLabels t1).length) at hk
  change ∀ lb ∈ tableLabels t1, _ at hlab
  obtain ⟨e1, e2⟩ := reloaded_labels h1 h2
  have hnd : L.Nodup := (linv_addAll calls).nodup
  have hhold := holding_of_stored h1
  have hc1 := cacheOk_of_holding hhold hH hS.labels
  have hc2 := C33_cacheOk h2 hc1
  have hlt : ∀ {k : Nat} {v : String}, L[k]? = some v → L.idxOf v = k := by
    intro k v h
    obtain ⟨hk, rfl⟩ := List.getElem?_eq_some_iff.1 h
    exact hnd.idxOf_getElem k hk
  have hget : ∀ v ∈ L, L[L.idxOf v]? = some v := by
    intro v hv
    rw [List.getElem?_eq_getElem (List.idxOf_lt_length_of_mem hv)]
    simp
  have hmemL : ∀ v, HasLabel t2 v → v ∈ L := by
    rintro v ⟨x, hx, hu⟩
    obtain ⟨q1, q2⟩ := filtered_texts h1 h2 hx
    rcases hu with ⟨u1, u2⟩ | ⟨u1, u2⟩
    · rcases q1 with ⟨_, e⟩ | ⟨w, hw, a1, _⟩
      · omega
      · rw [a1] at u2; cases u2; exact hw
    · rcases q2 with ⟨_, e⟩ | ⟨w, hw, a1, _⟩
      · omega
      · rw [a1] at u2; cases u2; exact hw
  have hkey : ∀ v, HasLabel t2 v → (L.idxOf v, v) ∈ tableLabels t2 := fun v hh => (e2 _).2 ⟨hget v (hmemL v hh), hh⟩
  have hk2 : ((tableLabels t2).map Prod.fst).Perm (List.range (tableLabels t2).length) := by
    have := down_closed e1 (by
      intro k hk i hik
      obtain ⟨lb, hlb, rfl⟩ := List.mem_map.1 hk
      obtain ⟨q1, q2⟩ := (e2 lb).1 hlb
      have hkl : lb.1 < L.length := getElem?_lt q1
      have hil : i < L.length := by omega
      have hiv : L[i]? = some L[i] := List.getElem?_eq_getElem hil
      have := hgap L[i] (List.getElem_mem hil) lb.2 (hmemL _ q2) (by rw [hlt hiv, hlt q1]; exact hik) q2
      exact List.mem_map.2 ⟨(i, L[i]), (e2 _).2 ⟨hiv, this⟩, rfl⟩)
    rwa [List.length_map] at this
  have hb1 : LabelsBelow (tableLabels t1).length (rowsIn t2).flatten := by
    apply C33_labelsBelow h2
    rw [hlen]
    exact labelsBelow_of_holding hhold
  have hb2 : LabelsBelow (tableLabels t2).length (rowsIn t2).flatten := by
    have hkl : ∀ v, HasLabel t2 v → L.idxOf v < (tableLabels t2).length := by
      intro v hh
      exact List.mem_range.1 (hk2.mem_iff.1 (List.mem_map_of_mem (f := Prod.fst) (hkey v hh)))
    intro y hy
    rw [rowsIn_flatten] at hy
    obtain ⟨x, hx, rfl⟩ := List.mem_map.1 hy
    obtain ⟨q1, q2⟩ := filtered_texts h1 h2 hx
    constructor
    · intro h0
      rcases q1 with ⟨_, e⟩ | ⟨w, hw, a1, a2, a3⟩
      · omega
      · have := hkl w ⟨x, hx, Or.inl ⟨a3, a1⟩⟩
        rw [a2]
        exact ⟨Int.natCast_nonneg _, by exact_mod_cast this⟩
    · intro h0
      rcases q2 with ⟨_, e⟩ | ⟨w, hw, a1, a2, a3⟩
      · omega
      · have := hkl w ⟨x, hx, Or.inr ⟨a3, a1⟩⟩
        rw [a2]
        exact ⟨Int.natCast_nonneg _, by exact_mod_cast this⟩
  have hsize : ∀ l, gtCount (rowsIn t2) l < 2 ^ 64 := by
    intro l
    have h3 := gtCount_bound hhold hc1 hH l
    have h4 : gtCount (rowsIn t2) l ≤ gtCount (rowsIn t1) l := by
      rw [(C33_counts h2 hc1 l).1, C28_groundtruths hc1]
      apply List.Subperm.length_le
      apply List.Nodup.subperm (List.nodup_dedup _)
      intro z hz
      rw [List.mem_dedup, List.mem_map] at hz ⊢
      obtain ⟨r, hr, rfl⟩ := hz
      obtain ⟨hr, hd⟩ := List.mem_filter.1 hr
      rw [decide_eq_true_eq] at hd
      refine ⟨r.row, List.mem_filter.2 ⟨?_, decide_eq_true ⟨hd.1, hd.2.1⟩⟩, rfl⟩
      rw [rowsIn_flatten]
      exact List.mem_map_of_mem hr
    have := hS.gts
    omega
  have hne2 : tableLabels t2 ≠ [] := by
    obtain ⟨v, hv⟩ := hne
    exact List.ne_nil_of_mem (hkey v hv)
  have hne1 : tableLabels t1 ≠ [] := by
    obtain ⟨v, hv⟩ := hne
    have : 0 < L.length := List.length_pos_of_mem (hmemL v hv)
    rw [← hlen] at this
    exact List.ne_nil_of_length_pos this
  have hmem1 : ∀ lb : Nat × String, lb ∈ tableLabels t1 ↔ L[lb.1]? = some lb.2 := by
    intro lb
    refine ⟨hlab lb, fun h => ?_⟩
    have : lb.1 ∈ (tableLabels t1).map Prod.fst := by
      rw [hk.mem_iff, List.mem_range, hlen]
      exact getElem?_lt h
    obtain ⟨lb', hlb', he⟩ := List.mem_map.1 this
    have h5 := hlab lb' hlb'
    rw [he, h] at h5
    have : lb' = lb := Prod.ext he (Option.some.inj h5).symm
    exact this ▸ hlb'
  refine ⟨_, _, C60_report hc2 hr rfl ho hne1 hk hb1 hsize hi hs, C60_report hc2 hr rfl ho' hne2 hk2 hb2 hsize hi hs, ?_, ?_, ?_, ?_⟩
  · intro v hv t ht
    have : (.ap (some (apAt (rowsIn t2) chunks t ((L.idxOf v : Nat) : Int))) t v : DMetric)
        ∈ (expectedReport (rowsIn t2) chunks (tableLabels t1) ious scores).ap :=
      List.mem_flatMap.2 ⟨t, ht, List.mem_map.2 ⟨(L.idxOf v, v), (hmem1 _).2 (hget v hv), rfl⟩⟩
    refine ⟨apAt (rowsIn t2) chunks t ((L.idxOf v : Nat) : Int), ?_⟩
    unfold Report.all
    simp only [List.mem_append]
    tauto
  · intro m v hm
    rw [mem_report (by rw [hm]; rfl), mem_report (by rw [hm]; rfl)]
    constructor
    · rintro ⟨lb, hlb, hmm⟩
      obtain ⟨q1, q2⟩ := (e2 lb).1 hlb
      have := own_label hmm
      rw [hm] at this
      exact ⟨⟨lb, (hmem1 lb).2 q1, hmm⟩, Option.some.inj this ▸ q2⟩
    · rintro ⟨⟨lb, hlb, hmm⟩, hh⟩
      have := own_label hmm
      rw [hm] at this
      exact ⟨lb, (e2 lb).2 ⟨(hmem1 lb).1 hlb, Option.some.inj this ▸ hh⟩, hmm⟩
  · intro hall
    have hp : (tableLabels t2).Perm (tableLabels t1) := by
      rw [List.perm_ext_iff_of_nodup (List.Nodup.of_map _ e1) (List.Nodup.of_map _ (hk.nodup_iff.2 List.nodup_range))]
      intro lb
      rw [e2, hmem1]
      exact ⟨fun h => h.1, fun h => ⟨h, hall _ (List.mem_of_getElem? h)⟩⟩
    refine expectedReport_renamed (g := id) ?_ ?_ ?_ ?_ ?_ ?_ ?_
    · rw [List.map_id]
      exact hp
    all_goals intros; rfl
  · have hkn : ((tableLabels t2).map Prod.snd).Nodup := by
      apply List.Nodup.map_on _ (List.Nodup.of_map _ e1)
      intro x hx y hy he
      have q1 := hlt ((e2 x).1 hx).1
      have q2 := hlt ((e2 y).1 hy).1
      rw [he] at q1
      exact Prod.ext (q1.symm.trans q2) he
    refine ⟨(tableLabels t2).map Prod.snd, hkn, ?_, ?_⟩
    · intro v
      constructor
      · intro hv
        obtain ⟨lb, hlb, rfl⟩ := List.mem_map.1 hv
        exact ((e2 lb).1 hlb).2
      · intro hv
        exact List.mem_map.2 ⟨_, hkey v hv, rfl⟩
    · intro t ht
      refine ⟨((tableLabels t2).map (fun lb => apAt (rowsIn t2) chunks t (lb.1 : Int))).sum, ?_, ?_⟩
      · have hsum : ((tableLabels t1).map (fun lb => apAt (rowsIn t2) chunks t (lb.1 : Int))).sum
            = ((tableLabels t2).map (fun lb => apAt (rowsIn t2) chunks t (lb.1 : Int))).sum := by
          have hsub : (tableLabels t2).Subperm (tableLabels t1) :=
            List.Nodup.subperm (List.Nodup.of_map _ e1) (fun lb hlb => (hmem1 lb).2 ((e2 lb).1 hlb).1)
          obtain ⟨l, hl1⟩ : ∃ l, (tableLabels t1).Perm (tableLabels t2 ++ l) := by
            obtain ⟨s, hs1, hs2⟩ := hsub
            obtain ⟨l, hl⟩ := hs2.exists_perm_append
            exact ⟨l, hl.trans (hs1.append_right l)⟩
          rw [(hl1.map _).sum_eq, List.map_append, List.sum_append]
          have : (l.map (fun lb => apAt (rowsIn t2) chunks t (lb.1 : Int))).sum = 0 := by
            apply List.sum_eq_zero
            intro x hx
            obtain ⟨lb, hlb, rfl⟩ := List.mem_map.1 hx
            apply apAt_none
            intro r hrr he
            have hn1 : (tableLabels t1).Nodup := List.Nodup.of_map _ (hk.nodup_iff.2 List.nodup_range)
            rw [hl1.nodup_iff, List.nodup_append] at hn1
            obtain ⟨m1, m2, _⟩ := ranked_pd hc2 hr hrr
            rw [rowsIn_flatten] at m1
            obtain ⟨x, hx, hxe⟩ := List.mem_map.1 m1
            obtain ⟨_, q2⟩ := filtered_texts h1 h2 hx
            rcases q2 with ⟨_, e⟩ | ⟨w, hw, a1, a2, a3⟩
            · rw [hxe] at e; omega
            · have hlb1 : lb ∈ tableLabels t1 := hl1.mem_iff.2 (List.mem_append_right _ hlb)
              have hh : HasLabel t2 w := ⟨x, hx, Or.inr ⟨a3, a1⟩⟩
              have hkk : lb.1 = L.idxOf w := by
                rw [hxe, he] at a2
                exact_mod_cast a2
              have hw' := (hmem1 lb).1 hlb1
              rw [hkk, hget w hw] at hw'
              have : lb = (L.idxOf w, w) := Prod.ext hkk (Option.some.inj hw').symm
              exact hn1.2.2 _ (hkey w hh) _ hlb this.symm
          rw [this, add_zero]
        rw [← hsum]
        have : (.mAP (some (mean (((tableLabels t1).map (fun lb => (lb.1 : Int))).map (apAt (rowsIn t2) chunks t)))) t : DMetric)
            ∈ (expectedReport (rowsIn t2) chunks (tableLabels t1) ious scores).mAP :=
          List.mem_map.2 ⟨t, ht, rfl⟩
        unfold mean at this
        rw [List.map_map, List.length_map, hlen] at this
        unfold Report.all
        simp only [List.mem_append]
        tauto
      · have : (.mAP (some (mean (((tableLabels t2).map (fun lb => (lb.1 : Int))).map (apAt (rowsIn t2) chunks t)))) t : DMetric)
            ∈ (expectedReport (rowsIn t2) chunks (tableLabels t2) ious scores).mAP :=
          List.mem_map.2 ⟨t, ht, rfl⟩
        unfold mean at this
        rw [List.map_map, List.length_map] at this
        rw [List.length_map]
        unfold Report.all
        simp only [List.mem_append]
        tauto

/-- **C107 (detection, gaps).** In the other case the loaded evaluator raises for every request. -/
theorem C107_detection_gap {calls : List History} {d g p : Option Expr} {t1 t2 : List (List FRow)}
    (h1 : Stored (Loader.init.addAll calls).rows t1) (h2 : Stored (filterTables d g p t1) t2)
    (hgap : ¬ NoGap (Loader.init.addAll calls).labels t2) (chunks : List (List RRow)) (order : List Rat → List Nat) (ious scores : List Rat) :
    ∃ e, computePrecisionRecall order (tableLabels t2) (rowsIn t2) chunks ious scores = .error e := by
  obtain ⟨e1, e2⟩ := reloaded_labels h1 h2
  have hnd : (Loader.init.addAll calls).labels.Nodup := (linv_addAll calls).nodup
  have hget : ∀ v ∈ (Loader.init.addAll calls).labels, (Loader.init.addAll calls).labels[(Loader.init.addAll calls).labels.idxOf v]? = some v := by
    intro v hv
    rw [List.getElem?_eq_getElem (List.idxOf_lt_length_of_mem hv)]
    simp
  unfold NoGap at hgap
  push Not at hgap
  obtain ⟨o, ho, v, hv, hlt, hh, hno⟩ := hgap
  have hbad : (tableLabels t2).any (fun lb => decide (lb.1 ≥ (tableLabels t2).length)) = true := by
    by_contra hcon
    rw [Bool.not_eq_true, List.any_eq_false] at hcon
    have hb : ∀ k ∈ (tableLabels t2).map Prod.fst, k < (tableLabels t2).length := by
      intro k hk
      obtain ⟨lb, hlb, rfl⟩ := List.mem_map.1 hk
      have := hcon lb hlb
      simpa using this
    have hp : ((tableLabels t2).map Prod.fst).Perm (List.range (tableLabels t2).length) :=
      (e1.subperm (fun k hk => List.mem_range.2 (hb k hk))).perm_of_length_le (by simp)
    have hvk : (Loader.init.addAll calls).labels.idxOf v ∈ (tableLabels t2).map Prod.fst :=
      List.mem_map.2 ⟨(_, v), (e2 (_, v)).2 ⟨hget v hv, hh⟩, rfl⟩
    have hok : (Loader.init.addAll calls).labels.idxOf o ∈ (tableLabels t2).map Prod.fst :=
      hp.mem_iff.2 (List.mem_range.2 (lt_trans hlt (hb _ hvk)))
    obtain ⟨lb, hlb, he⟩ := List.mem_map.1 hok
    obtain ⟨q1, q2⟩ := (e2 lb).1 hlb
    rw [he, hget o ho] at q1
    exact hno (Option.some.inj q1 ▸ q2)
  unfold computePrecisionRecall
  split
  · exact ⟨_, rfl⟩
  · split
    · exact ⟨_, rfl⟩
    · split
      · exact ⟨_, rfl⟩
      · cases accumulate (gtCount (rowsIn t2)) (tableLabels t2).length order ious scores chunks with
        | error e => exact ⟨e, rfl⟩
        | ok a =>
          exact ⟨.indexError, rfl⟩

/-- The claim: for a filtered evaluation in any layout, with a label left, the evaluator that `load` gives (without override) has the metrics of the
evaluator that `filter` returned. `P` is asked of the labels of the source and of the filtered tables. -/
def Reloads (P : List String → List (List FRow) → Prop) : Prop :=
  ∀ (calls : List History), HistoryOk calls.flatten → SizesOk (Loader.init.addAll calls) →
    ∀ (d g p : Option Expr) (t1 t2 : List (List FRow)), Stored (Loader.init.addAll calls).rows t1 → Stored (filterTables d g p t1) t2 →
    (∃ v, HasLabel t2 v) → P (Loader.init.addAll calls).labels t2 →
    ∀ (chunks : List (List RRow)), RankedOf (rowsIn t2) chunks.flatten → ∀ (order : List Rat → List Nat), IsArgsort order →
    ∀ (ious scores : List Rat), ious ≠ [] → scores ≠ [] →
    ∃ R A, computePrecisionRecall order (tableLabels t1) (rowsIn t2) chunks ious scores = .ok R ∧
      computePrecisionRecall order (tableLabels t2) (rowsIn t2) chunks ious scores = .ok A ∧ ∀ m, m ∈ A.all ↔ m ∈ R.all

/-- A cat in one image, a dog in another. -/
def catThenDog : List History :=
  [[(⟨"a", [⟨"g", ["cat"], [], ""⟩], [], ""⟩, fun _ _ => 0), (⟨"b", [⟨"h", ["dog"], [], ""⟩], [], ""⟩, fun _ _ => 0)]]

theorem catThenDog_ok : HistoryOk catThenDog.flatten := by
  refine ⟨?_, ?_, ?_⟩
  · intro x hx a ha
    simp only [catThenDog, List.flatten_cons, List.flatten_nil, List.append_nil, List.mem_cons, List.not_mem_nil, or_false] at hx
    rcases hx with rfl | rfl <;> simp at ha <;> subst ha <;> rfl
  · intro x hx a ha
    simp only [catThenDog, List.flatten_cons, List.flatten_nil, List.append_nil, List.mem_cons, List.not_mem_nil, or_false] at hx
    rcases hx with rfl | rfl <;> simp at ha
  · intro x hx p g
    simp only [catThenDog, List.flatten_cons, List.flatten_nil, List.append_nil, List.mem_cons, List.not_mem_nil, or_false] at hx
    rcases hx with rfl | rfl <;> norm_num

theorem catThenDog_sizes : SizesOk (Loader.init.addAll catThenDog) :=
  ⟨by decide +kernel, by decide +kernel, by decide +kernel, by decide +kernel⟩

/-- The rows of the image with the given id. -/
def imageRows (u : String) : List FRow :=
  (filterTables (some (fun r => decide (r.datumUid = u))) none none [(Loader.init.addAll catThenDog).rows.flatten]).flatten

/-- The image with the given id, as one table. -/
def onlyImage (u : String) : List (List FRow) := [imageRows u]

theorem onlyImage_ranked (u : String) : RankedOf (rowsIn (onlyImage u)) [rankTable ((imageRows u).map FRow.row)].flatten := by
  have e : [rankTable ((imageRows u).map FRow.row)].flatten = rankTable ((imageRows u).map FRow.row) := by simp
  rw [e]
  exact rankedOf_mem _

theorem onlyImage_labels (v : String) : (HasLabel (onlyImage "a") v ↔ v = "cat") ∧ (HasLabel (onlyImage "b") v ↔ v = "dog") := by
  have ea : (onlyImage "a").flatten.map (fun r => (r.row.gt, r.gtLabel, r.row.pd)) = [(0, some "cat", -1)] := by decide +kernel
  have eb : (onlyImage "b").flatten.map (fun r => (r.row.gt, r.gtLabel, r.row.pd)) = [(1, some "dog", -1)] := by decide +kernel
  have key : ∀ (t : List (List FRow)) (k : Nat) (w : String), t.flatten.map (fun r => (r.row.gt, r.gtLabel, r.row.pd)) = [((k : Int), some w, -1)] →
      (HasLabel t v ↔ v = w) := by
    intro t k w e
    obtain ⟨r, hh, e⟩ := List.map_eq_singleton_iff.1 e
    · simp only [Prod.mk.injEq] at e
      obtain ⟨e1, e2, e3⟩ := e
      unfold HasLabel
      rw [hh]
      simp only [List.mem_singleton, exists_eq_left, e1, e2, e3]
      constructor
      · rintro (⟨_, h⟩ | ⟨h, _⟩)
        · exact (Option.some.inj h).symm
        · omega
      · rintro rfl
        exact Or.inl ⟨by omega, rfl⟩
  exact ⟨key _ 0 _ ea, key _ 1 _ eb⟩

theorem catThenDog_labels : (Loader.init.addAll catThenDog).labels = ["cat", "dog"] := by decide +kernel

/-- The conditions of `C107_detection_partial` are met by the image of the cat. -/
theorem onlyImage_noGap : NoGap (Loader.init.addAll catThenDog).labels (onlyImage "a") := by
  intro o ho v hv hlt hh
  rw [(onlyImage_labels v).1] at hh
  subst hh
  rw [catThenDog_labels] at hlt
  simp at hlt

theorem onlyImage_gap : ¬ NoGap (Loader.init.addAll catThenDog).labels (onlyImage "b") := by
  intro h
  have := h "cat" (by decide +kernel) "dog" (by decide +kernel) (by decide +kernel) (((onlyImage_labels _).2).2 rfl)
  rw [(onlyImage_labels _).2] at this
  simp at this

/-- **C107 (detection), violation.** If only the dog is left, the loaded evaluator raises. -/
theorem C107_detection_violation : ¬ Reloads (fun _ _ => True) := by
  intro h
  have hrank := onlyImage_ranked "b"
  obtain ⟨_, A, _, h1, _⟩ := h catThenDog catThenDog_ok catThenDog_sizes _ _ _ _ (onlyImage "b") (stored_one _) (stored_one _)
    ⟨"dog", ((onlyImage_labels _).2).2 rfl⟩ trivial _ hrank stableOrder stableOrder_ok [1/2] [1/2] (by simp) (by simp)
  obtain ⟨e, he⟩ := C107_detection_gap (stored_one _) (t2 := onlyImage "b") (stored_one _) onlyImage_gap
    [rankTable ((imageRows "b").map FRow.row)] stableOrder [1/2] [1/2]
  rw [h1] at he
  cases he

/-- **C107 (detection), violation without a gap.** If only the cat is left, the metrics of the dog are missing. -/
theorem C107_detection_missing_violation : ¬ Reloads NoGap := by
  intro h
  have hrank := onlyImage_ranked "a"
  have hs1 := stored_one (Loader.init.addAll catThenDog).rows
  have hs2 : Stored (filterTables (some (fun r => decide (r.datumUid = "a"))) none none [(Loader.init.addAll catThenDog).rows.flatten]) (onlyImage "a") :=
    stored_one _
  have hne : ∃ v, HasLabel (onlyImage "a") v := ⟨"cat", ((onlyImage_labels _).1).2 rfl⟩
  obtain ⟨R, A, h1, h2, h3⟩ := h catThenDog catThenDog_ok catThenDog_sizes _ _ _ _ (onlyImage "a") hs1 hs2 hne onlyImage_noGap
    _ hrank stableOrder stableOrder_ok [1/2] [1/2] (by simp) (by simp)
  obtain ⟨R', A', g1, g2, g3, g4, _⟩ := C107_detection_partial catThenDog_ok catThenDog_sizes hs1 hs2 hne onlyImage_noGap hrank
    stableOrder_ok stableOrder_ok (ious := [1/2]) (scores := [1/2]) (by simp) (by simp)
  rw [h1] at g1
  rw [h2] at g2
  cases g1
  cases g2
  obtain ⟨x, hx⟩ := g3 "dog" (by decide +kernel) (1/2) (by simp)
  have := ((g4 _ "dog" rfl).1 ((h3 _).2 hx)).2
  rw [(onlyImage_labels _).1] at this
  simp at this

end Verif.Detection
