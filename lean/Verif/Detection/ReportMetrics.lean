import Verif.Detection.ReportProps
import Verif.Detection.FilterProps

/-! # C60: consequences of the closed form of the report -/

namespace Verif.Detection

open Verif.Shared (extractLabels)

/-! ## The thresholds of a metric -/

/-- The pair of thresholds that a metric of the lists `counts`, `precision`, `recall` and `f1` names. -/
def DMetric.pair : DMetric → Option (Rat × Rat)
  | .counts _ _ _ _ t s => some (t, s)
  | .precision _ _ t s => some (t, s)
  | .recall _ _ t s => some (t, s)
  | .f1 _ _ t s => some (t, s)
  | _ => none

/-- The IoU threshold that a metric of the lists `ap` and `prCurve` names. -/
def DMetric.single : DMetric → Option Rat
  | .ap _ t _ => some t
  | .prCurve _ _ t _ => some t
  | _ => none

/-- The metrics that name one pair of thresholds. -/
def Report.perPair (R : Report) : List DMetric := R.counts ++ R.precision ++ R.recall ++ R.f1

/-- The metrics that name one IoU threshold. -/
def Report.perIou (R : Report) : List DMetric := R.ap ++ R.prCurve

theorem mem_per {labels : List (Nat × String)} {ious scores : List Rat} {f : Rat → Rat → Nat × String → DMetric}
    (hf : ∀ t s lb, (f t s lb).pair = some (t, s)) {t s : Rat} (ht : t ∈ ious) (hs : s ∈ scores) (m : DMetric) :
    (m ∈ labels.flatMap (fun lb => scores.flatMap (fun s => ious.map (fun t => f t s lb))) ∧ m.pair = some (t, s)) ↔
    m ∈ labels.flatMap (fun lb => [s].flatMap (fun s => [t].map (fun t => f t s lb))) := by
  simp only [List.mem_flatMap, List.mem_map, List.mem_singleton, exists_eq_left]
  constructor
  · rintro ⟨⟨lb, hlb, s', hs', t', ht', rfl⟩, h2⟩
    rw [hf] at h2
    cases h2
    exact ⟨lb, hlb, rfl⟩
  · rintro ⟨lb, hlb, rfl⟩
    exact ⟨⟨lb, hlb, s, hs, t, ht, rfl⟩, hf _ _ _⟩

theorem mem_perIou {labels : List (Nat × String)} {ious : List Rat} {f : Rat → Nat × String → DMetric}
    (hf : ∀ t lb, (f t lb).single = some t) {t : Rat} (ht : t ∈ ious) (m : DMetric) :
    (m ∈ ious.flatMap (fun t => labels.map (f t)) ∧ m.single = some t) ↔ m ∈ [t].flatMap (fun t => labels.map (f t)) := by
  simp only [List.mem_flatMap, List.mem_map, List.mem_singleton, exists_eq_left]
  constructor
  · rintro ⟨⟨t', ht', lb, hlb, rfl⟩, h2⟩
    rw [hf] at h2
    cases h2
    exact ⟨lb, hlb, rfl⟩
  · rintro ⟨lb, hlb, rfl⟩
    exact ⟨⟨t, ht, lb, hlb, rfl⟩, hf _ _⟩

/-- **C60 (one threshold at a time).** The metrics that a call with lists of thresholds reports for a pair of
thresholds are exactly those of a call with this pair alone, and the metrics for an IoU threshold are those of
a call with this IoU threshold alone (and any score thresholds). -/
theorem C60_single {tables : List (List Row)} (hc : CacheOk tables) {out : List RRow} (h : RankedOf tables out)
    {chunks : List (List RRow)} (hch : chunks.flatten = out) {order : List Rat → List Nat} (ho : IsArgsort order)
    {labels : List (Nat × String)} (hne : labels ≠ []) (hk : (labels.map Prod.fst).Perm (List.range labels.length))
    (hlab : LabelsBelow labels.length tables.flatten) (hsize : ∀ l, gtCount tables l < 2 ^ 64)
    {ious scores : List Rat} {t s : Rat} (ht : t ∈ ious) (hs : s ∈ scores) :
    ∃ R R1, computePrecisionRecall order labels tables chunks ious scores = .ok R ∧
      computePrecisionRecall order labels tables chunks [t] [s] = .ok R1 ∧
      (∀ m, (m ∈ R.perPair ∧ m.pair = some (t, s)) ↔ m ∈ R1.perPair) ∧
      (∀ m, (m ∈ R.perIou ∧ m.single = some t) ↔ m ∈ R1.perIou) := by
  refine ⟨_, _, C60_report hc h hch ho hne hk hlab hsize (List.ne_nil_of_mem ht) (List.ne_nil_of_mem hs),
    C60_report hc h hch ho hne hk hlab hsize (List.cons_ne_nil t []) (List.cons_ne_nil s []), ?_, ?_⟩
  · intro m
    simp only [Report.perPair, List.mem_append, or_and_right, expectedReport]
    refine or_congr (or_congr (or_congr ?_ ?_) ?_) ?_
    all_goals
      refine mem_per (f := fun t s lb => _) ?_ ht hs m
      intro t s lb
      rfl
  · intro m
    simp only [Report.perIou, List.mem_append, or_and_right, expectedReport]
    refine or_congr ?_ ?_
    all_goals
      refine mem_perIou (f := fun t lb => _) ?_ ht m
      intro t lb
      rfl

/-! ## F1 -/

/-- The F1 that the code computes from precision and recall is `2 TP / (TP + FP + n)`, as long as there are
fewer than 10^9 predictions of the label. -/
theorem f1_eq {tp fp n : Nat} (hb : tp ≤ n) (hs : tp + fp < 1000000000) :
    f1 (precision tp fp) (recall tp n) = 2 * (tp : Rat) / ((tp : Rat) + (fp : Rat) + (n : Rat)) := by
  by_cases h0 : tp = 0
  · subst h0
    have h1 : precision 0 fp = 0 := by unfold precision; split <;> simp
    have h2 : recall 0 n = 0 := by unfold recall; split <;> simp
    rw [h1, h2]
    unfold f1
    split <;> simp
  · have hp : 0 < tp := Nat.pos_of_ne_zero h0
    have e1 : precision tp fp = (tp : Rat) / ((tp : Rat) + (fp : Rat)) := by
      unfold precision
      rw [if_pos (by omega)]
      push_cast
      rfl
    have e2 : recall tp n = (tp : Rat) / (n : Rat) := by
      unfold recall
      rw [if_pos (by omega)]
    have q1 : (1 : Rat) ≤ (tp : Rat) := by exact_mod_cast hp
    have q2 : (tp : Rat) ≤ (n : Rat) := by exact_mod_cast hb
    have q3 : (0 : Rat) ≤ (fp : Rat) := by exact_mod_cast Nat.zero_le fp
    have q4 : (tp : Rat) + (fp : Rat) < 1000000000 := by exact_mod_cast hs
    have hgt : precision tp fp + recall tp n > EPSILON := by
      rw [e1, e2]
      have a1 : (0 : Rat) ≤ (tp : Rat) / (n : Rat) := div_nonneg (by linarith) (by linarith)
      have a2 : EPSILON < (tp : Rat) / ((tp : Rat) + (fp : Rat)) := by
        unfold EPSILON
        rw [lt_div_iff₀ (by linarith)]
        linarith
      linarith
    unfold f1
    rw [if_pos hgt, e1, e2]
    have b1 : (tp : Rat) ≠ 0 := by linarith
    have b2 : (tp : Rat) + (fp : Rat) ≠ 0 := by linarith
    have b3 : (n : Rat) ≠ 0 := by linarith
    have b4 : (tp : Rat) + (fp : Rat) + (n : Rat) ≠ 0 := by linarith
    have hden : (tp : Rat) / ((tp : Rat) + (fp : Rat)) + (tp : Rat) / (n : Rat)
        = (tp : Rat) * ((tp : Rat) + (fp : Rat) + (n : Rat)) / (((tp : Rat) + (fp : Rat)) * (n : Rat)) := by
      field_simp
      ring
    rw [hden]
    field_simp

/-- **C60 (F1).** For every cache and all thresholds, with fewer than 10^9 predictions of the label: F1 is
`2 TP / (TP + FP + n)`. -/
theorem C60_f1_partial {tables : List (List Row)} (hc : CacheOk tables) {out : List RRow} (h : RankedOf tables out)
    {chunks : List (List RRow)} (hch : chunks.flatten = out) (t s : Rat) (l : Int)
    (hsize : tpTotal t s chunks l + fpTotal t s chunks l < 1000000000) :
    f1 (precisionOf chunks t s l) (recallAt tables chunks t s l)
      = 2 * (tpTotal t s chunks l : Rat) / ((tpTotal t s chunks l : Rat) + (fpTotal t s chunks l : Rat) + (gtCount tables l : Rat)) :=
  f1_eq (C28_bound hc h t s l chunks hch) hsize

/-- The bound on the number of predictions is needed: the guard of the division drops small values. -/
theorem C60_f1_violation : ∃ tp fp n : Nat, 0 < tp ∧ tp ≤ n ∧ f1 (precision tp fp) (recall tp n) = 0 := by
  refine ⟨1, 1999999999, 2000000000, by norm_num, by norm_num, ?_⟩
  unfold f1 precision recall EPSILON
  norm_num

/-! ## Range -/

/-- The numbers of a metric that are rates. -/
def DMetric.rates : DMetric → List (Option Rat)
  | .ap v _ _ => [v]
  | .mAP v _ => [v]
  | .apOverIous v _ _ => [v]
  | .mAPOverIous v _ => [v]
  | .ar v _ _ _ => [v]
  | .mAR v _ _ => [v]
  | .arOverScores v _ _ _ => [v]
  | .mAROverScores v _ _ => [v]
  | .prCurve ps _ _ _ => ps.map some
  | .counts _ _ _ _ _ _ => []
  | .precision v _ _ _ => [some v]
  | .recall v _ _ _ => [some v]
  | .f1 v _ _ _ => [some v]

/-- All metrics of a report. -/
def Report.all (R : Report) : List DMetric :=
  R.ap ++ R.mAP ++ R.apOverIous ++ R.mAPOverIous ++ R.ar ++ R.mAR ++ R.arOverScores ++ R.mAROverScores ++ R.prCurve ++ R.counts
    ++ R.precision ++ R.recall ++ R.f1

/-- A number in [0, 1] that is not NaN. -/
def Rate (v : Option Rat) : Prop := ∃ x, v = some x ∧ 0 ≤ x ∧ x ≤ 1

theorem rate_some {x : Rat} (h : 0 ≤ x ∧ x ≤ 1) : Rate (some x) := ⟨x, rfl, h⟩

theorem mean_unit {l : List Rat} (hl : l ≠ []) (h : ∀ x ∈ l, 0 ≤ x ∧ x ≤ 1) : 0 ≤ mean l ∧ mean l ≤ 1 := by
  have hs := sum_range h
  have hpos : (0 : Rat) < (l.length : Rat) := by exact_mod_cast List.length_pos_iff.2 hl
  unfold mean
  constructor
  · rw [le_div_iff₀ hpos]; linarith [hs.1]
  · rw [div_le_iff₀ hpos]; linarith [hs.2]

theorem mean_map_unit {α : Type} {l : List α} (hl : l ≠ []) {f : α → Rat} (h : ∀ x, 0 ≤ f x ∧ f x ≤ 1) : 0 ≤ mean (l.map f) ∧ mean (l.map f) ≤ 1 := by
  apply mean_unit (by simpa using hl)
  intro x hx
  obtain ⟨a, _, rfl⟩ := List.mem_map.1 hx
  exact h a

theorem f1_range {p r : Rat} (hp : 0 ≤ p ∧ p ≤ 1) (hr : 0 ≤ r ∧ r ≤ 1) : 0 ≤ f1 p r ∧ f1 p r ≤ 1 := by
  unfold f1
  split
  · rename_i h
    have hpos : 0 < p + r := lt_trans (by unfold EPSILON; norm_num) h
    constructor
    · exact div_nonneg (by have := mul_nonneg hp.1 hr.1; linarith) hpos.le
    · rw [div_le_one hpos]
      have h1 := mul_nonneg hp.1 (sub_nonneg.2 hr.2)
      have h2 := mul_nonneg hr.1 (sub_nonneg.2 hp.2)
      linarith
  · exact ⟨le_refl _, zero_le_one⟩

/-- **C60 (range).** Every precision, recall, F1, AP, AR value and every aggregate in a report is a number in
[0, 1]; none is NaN. -/
theorem C60_range_partial {tables : List (List Row)} (hc : CacheOk tables) {out : List RRow} (h : RankedOf tables out)
    {chunks : List (List RRow)} (hch : chunks.flatten = out) {order : List Rat → List Nat} (ho : IsArgsort order)
    {labels : List (Nat × String)} (hne : labels ≠ []) (hk : (labels.map Prod.fst).Perm (List.range labels.length))
    (hlab : LabelsBelow labels.length tables.flatten) (hsize : ∀ l, gtCount tables l < 2 ^ 64)
    {ious scores : List Rat} (hi : ious ≠ []) (hs : scores ≠ []) :
    ∃ R, computePrecisionRecall order labels tables chunks ious scores = .ok R ∧ ∀ m ∈ R.all, ∀ v ∈ m.rates, Rate v := by
  refine ⟨_, C60_report hc h hch ho hne hk hlab hsize hi hs, ?_⟩
  have hn : ∀ t l, correctRows t l chunks.flatten ≤ gtCount tables l := fun t l => hch ▸ correctRows_le hc h t l
  have rap : ∀ t l, 0 ≤ apAt tables chunks t l ∧ apAt tables chunks t l ≤ 1 := fun t l => C29_range t _ l chunks (hn t l)
  have rpr : ∀ t s l, 0 ≤ precisionOf chunks t s l ∧ precisionOf chunks t s l ≤ 1 :=
    fun t s l => (C28_precision_recall hc h t s l chunks hch _).1
  have rrc : ∀ t s l, 0 ≤ recallAt tables chunks t s l ∧ recallAt tables chunks t s l ≤ 1 :=
    fun t s l => (C28_precision_recall hc h t s l chunks hch 0).2
  have rcv : ∀ t l, ∀ x ∈ interpolated (curveOf t (gtCount tables l) l chunks).prec, 0 ≤ x ∧ x ≤ 1 := by
    intro t l x hx
    obtain ⟨j, hj, rfl⟩ := List.getElem_of_mem hx
    rcases ((C29_interpolation t _ l chunks _ rfl (hn t l)).2.1 j hj).2 with ⟨h, _⟩ | ⟨k, _, h⟩
    · rw [h]; exact ⟨le_refl _, zero_le_one⟩
    · rw [h]; exact precisionAt_range _ k
  have hids : labels.map (fun lb => (lb.1 : Int)) ≠ [] := by simpa using hne
  intro m hm
  simp only [Report.all, List.mem_append] at hm
  unfold expectedReport at hm
  simp only [List.mem_flatMap, List.mem_map, List.mem_singleton] at hm
  rcases hm with (((((((((((⟨t, _, lb, _, rfl⟩ | ⟨t, _, rfl⟩) | ⟨lb, _, rfl⟩) | rfl) | ⟨s, _, lb, _, rfl⟩) | ⟨s, _, rfl⟩) | ⟨lb, _, rfl⟩) | rfl) |
    ⟨t, _, lb, _, rfl⟩) | ⟨lb, _, s, _, t, _, rfl⟩) | ⟨lb, _, s, _, t, _, rfl⟩) | ⟨lb, _, s, _, t, _, rfl⟩) | ⟨lb, _, s, _, t, _, rfl⟩
  all_goals
    intro v hv
    simp only [DMetric.rates, List.mem_singleton, List.mem_map, List.not_mem_nil] at hv
  · rw [hv]; exact rate_some (rap _ _)
  · rw [hv]; exact rate_some (mean_map_unit hids (rap t))
  · rw [hv]; exact rate_some (mean_map_unit hi (fun t => rap t _))
  · rw [hv]; exact rate_some (mean_map_unit hi (fun t => mean_map_unit hids (rap t)))
  · rw [hv]; exact rate_some (mean_map_unit hi (fun t => rrc t s _))
  · rw [hv]; exact rate_some (mean_map_unit hids (fun l => mean_map_unit hi (fun t => rrc t s l)))
  · rw [hv]; exact rate_some (mean_map_unit hs (fun s => mean_map_unit hi (fun t => rrc t s _)))
  · rw [hv]; exact rate_some (mean_map_unit hs (fun s => mean_map_unit hids (fun l => mean_map_unit hi (fun t => rrc t s l))))
  · obtain ⟨x, hx, rfl⟩ := hv
    exact rate_some (rcv _ _ x hx)
  · rw [hv]; exact rate_some (rpr _ _ _)
  · rw [hv]; exact rate_some (rrc _ _ _)
  · rw [hv]; exact rate_some (f1_range (rpr _ _ _) (rrc _ _ _))

/-! ## Edge cases -/

/-- **C60 (empty thresholds).** Without IoU or score thresholds the call ends with `ValueError`. -/
theorem C60_no_thresholds (order : List Rat → List Nat) (labels : List (Nat × String)) (tables : List (List Row))
    (chunks : List (List RRow)) (ious scores : List Rat) (h : ious = [] ∨ scores = []) :
    computePrecisionRecall order labels tables chunks ious scores = .error .valueError := by
  unfold computePrecisionRecall
  rcases h with rfl | rfl
  · rfl
  · split
    · rfl
    · rfl

/-- **C60 (no labels).** For an empty cache mean average precision is 0, but mean average recall is NaN: the mean over labels
is guarded only for precision. -/
theorem C60_no_labels_violation (order : List Rat → List Nat) (t s : Rat) :
    ∃ R, computePrecisionRecall order [] [] [] [t] [s] = .ok R ∧ R.mAP = [.mAP (some 0) t] ∧ R.mAR = [.mAR none [t] s] := by
  refine ⟨_, rfl, ?_, ?_⟩
  · rfl
  · rfl

/-! ## Every cache that the loader writes -/

theorem dict_keys {d : List (Int × String)} {L : List String} (hnd : (d.map Prod.fst).Nodup)
    (h : ∀ (i : Int) (s : String), d.lookup i = some s ↔ 0 ≤ i ∧ L[i.toNat]? = some s) :
    (d.map (fun x => x.1.toNat)).Perm (List.range L.length) ∧ d.length = L.length := by
  have hmem : ∀ i : Int, i ∈ d.map Prod.fst ↔ 0 ≤ i ∧ i.toNat < L.length := by
    intro i
    constructor
    · intro hi
      have : d.lookup i ≠ none := by
        intro hn
        rw [List.lookup_eq_none_iff] at hn
        obtain ⟨x, hx, rfl⟩ := List.mem_map.1 hi
        simpa using hn x hx
      obtain ⟨s, hs⟩ := Option.ne_none_iff_exists'.1 this
      obtain ⟨h0, h1⟩ := (h i s).1 hs
      exact ⟨h0, getElem?_lt h1⟩
    · rintro ⟨h0, h1⟩
      have := (h i L[i.toNat]).2 ⟨h0, List.getElem?_eq_getElem h1⟩
      by_contra hn
      have h2 : d.lookup i = none := by
        rw [List.lookup_eq_none_iff]
        intro p hp
        have : p.1 ≠ i := fun e => hn (e ▸ List.mem_map_of_mem (f := Prod.fst) hp)
        simpa using this.symm
      rw [h2] at this
      cases this
  have hnd' : (d.map (fun x => x.1.toNat)).Nodup := by
    have : d.map (fun x => x.1.toNat) = (d.map Prod.fst).map Int.toNat := by rw [List.map_map]; rfl
    rw [this]
    apply List.Nodup.map_on _ hnd
    intro x hx y hy hxy
    have := (hmem x).1 hx
    have := (hmem y).1 hy
    omega
  have hp : (d.map (fun x => x.1.toNat)).Perm (List.range L.length) := by
    rw [List.perm_ext_iff_of_nodup hnd' List.nodup_range]
    intro a
    rw [List.mem_range]
    constructor
    · intro ha
      obtain ⟨x, hx, rfl⟩ := List.mem_map.1 ha
      exact ((hmem x.1).1 (List.mem_map_of_mem (f := Prod.fst) hx)).2
    · intro ha
      have := (hmem (a : Int)).2 ⟨by omega, by omega⟩
      obtain ⟨x, hx, he⟩ := List.mem_map.1 this
      exact List.mem_map.2 ⟨x, hx, by rw [he]; simp⟩
  exact ⟨hp, by simpa using hp.length_eq⟩

theorem labelsBelow_of_holding {calls : List History} {keep : Nat → Bool} {tables : List (List Row)} (h : Holding calls keep tables) :
    LabelsBelow (Loader.init.addAll calls).labels.length tables.flatten := by
  intro r hr
  obtain ⟨k, x, f, hkp, hk, hf, rfl⟩ := (h.rows r).1 hr
  obtain ⟨l1, l2⟩ := isRow_labels calls hk hf
  obtain ⟨t1, t2⟩ := hf.texts
  constructor
  · intro h0
    rcases t1 with ⟨_, _, h3⟩ | ⟨v, hv, e, _⟩
    · omega
    · have := idxOf_mem_lt (l1 v hv)
      rw [e]
      omega
  · intro h0
    rcases t2 with ⟨_, _, h3⟩ | ⟨v, hv, e, _⟩
    · omega
    · have := idxOf_mem_lt (l2 v hv)
      rw [e]
      omega

theorem gtCount_bound {calls : List History} {keep : Nat → Bool} {tables : List (List Row)} (h : Holding calls keep tables)
    (hc : CacheOk tables) (hH : HistoryOk calls.flatten) (l : Int) : gtCount tables l ≤ (Loader.init.addAll calls).gts := by
  rw [C28_groundtruths hc, (linv_addAll calls).gts]
  set ids := ((tables.flatten.filter (fun r => decide (0 ≤ r.gt ∧ r.gl = l))).map Row.gt).dedup
  have hnd : ids.Nodup := List.nodup_dedup _
  have hm : ∀ z ∈ ids, ∃ n : Nat, z = (n : Int) ∧ n < gtOffset calls.flatten calls.flatten.length := by
    intro z hz
    obtain ⟨r, hr, rfl⟩ := List.mem_map.1 (List.mem_dedup.1 hz)
    obtain ⟨hr, h0⟩ := List.mem_filter.1 hr
    rw [decide_eq_true_eq] at h0
    obtain ⟨k, x, f, hkp, hk, hf, rfl⟩ := (h.rows r).1 hr
    rcases hf.gt (hH.gtLabel x (List.mem_of_getElem? hk)) with ⟨e1, _⟩ | ⟨g, ga, hg, e1, _⟩
    · omega
    · exact ⟨gtOffset calls.flatten k + g, by rw [e1], (offset_lt calls.flatten hk).1 g (getElem?_lt hg)⟩
  have hnd2 : (ids.map Int.toNat).Nodup := by
    apply List.Nodup.map_on _ hnd
    intro x hx y hy hxy
    obtain ⟨n, rfl, _⟩ := hm x hx
    obtain ⟨m, rfl, _⟩ := hm y hy
    omega
  have hsub : (ids.map Int.toNat).Subperm (List.range (gtOffset calls.flatten calls.flatten.length)) := by
    apply List.Nodup.subperm hnd2
    intro a ha
    obtain ⟨z, hz, rfl⟩ := List.mem_map.1 ha
    obtain ⟨n, rfl, hn⟩ := hm z hz
    simpa using hn
  simpa using hsub.length_le

/-- **C60 (end to end).** For every sequence of `add_*` calls, every division of the rows into tables, every
division of the ranked cache and every order of equal precisions: the call succeeds with the expected report,
where the labels are those that `extract_labels` reads from the tables. -/
theorem C60_end_to_end (calls : List History) (hv : ∀ x ∈ calls.flatten, DetOk x.1) (hH : HistoryOk calls.flatten)
    (hS : SizesOk (Loader.init.addAll calls)) (hne : (Loader.init.addAll calls).labels ≠ [])
    {ftables : List (List FRow)} (hst : Stored (Loader.init.addAll calls).rows ftables)
    {out : List RRow} (h : RankedOf (rowsIn ftables) out) {chunks : List (List RRow)} (hch : chunks.flatten = out)
    {order : List Rat → List Nat} (ho : IsArgsort order) {ious scores : List Rat} (hi : ious ≠ []) (hs : scores ≠ []) :
    let labels := (extractLabels (ftables.map (fun t => t.map labelCols))).map (fun x => (x.1.toNat, x.2))
    (∀ lb, lb ∈ labels ↔ (Loader.init.addAll calls).labels[lb.1]? = some lb.2) ∧
    computePrecisionRecall order labels (rowsIn ftables) chunks ious scores
      = .ok (expectedReport (rowsIn ftables) chunks labels ious scores) := by
  intro labels
  obtain ⟨d1, d2⟩ := C50_detection calls hv hst
  obtain ⟨k1, k2⟩ := dict_keys d1 d2
  have hlen : labels.length = (Loader.init.addAll calls).labels.length := by
    rw [← k2]
    simp [labels]
  have hhold := holding_of_stored hst
  have hc := cacheOk_of_holding hhold hH hS.labels
  constructor
  · intro lb
    constructor
    · intro hlb
      obtain ⟨x, hx, rfl⟩ := List.mem_map.1 hlb
      have := (d2 x.1 x.2).1 (by
        rw [List.lookup_eq_some_iff]
        obtain ⟨l1, l2, he⟩ := List.append_of_mem hx
        refine ⟨l1, l2, he, ?_⟩
        intro p hp
        rw [he, List.map_append, List.nodup_append] at d1
        have := d1.2.2 p.1 (List.mem_map_of_mem (f := Prod.fst) hp) x.1 (by simp)
        simpa using this.symm)
      exact this.2
    · intro hlb
      have := (d2 (lb.1 : Int) lb.2).2 ⟨by omega, by simpa using hlb⟩
      rw [List.lookup_eq_some_iff] at this
      obtain ⟨l1, l2, he, _⟩ := this
      refine List.mem_map.2 ⟨((lb.1 : Int), lb.2), ?_, by simp⟩
      rw [he]
      simp
  · apply C60_report hc h hch ho
    · intro he
      rw [he] at hlen
      exact hne (List.length_eq_zero_iff.1 hlen.symm)
    · rw [hlen]
      have : labels.map Prod.fst = (extractLabels (ftables.map (fun t => t.map labelCols))).map (fun x => x.1.toNat) := by
        simp [labels]
      rw [this]
      exact k1
    · rw [hlen]
      exact labelsBelow_of_holding hhold
    · intro l
      have := gtCount_bound hhold hc hH l
      have := hS.gts
      omega
    · exact hi
    · exact hs

/-! ## Instances -/

/-- A stable descending order of the indices. -/
def stableOrder (p : List Rat) : List Nat := (List.range p.length).insertionSort (fun i j => p.getD j 0 ≤ p.getD i 0)

theorem stableOrder_ok : IsArgsort stableOrder := by
  intro p
  have : Std.Total (fun i j : Nat => p.getD j 0 ≤ p.getD i 0) := ⟨fun i j => le_total _ _⟩
  have : IsTrans Nat (fun i j : Nat => p.getD j 0 ≤ p.getD i 0) := ⟨fun a b c h1 h2 => le_trans h2 h1⟩
  refine ⟨List.perm_insertionSort _ _, ?_⟩
  refine (List.pairwise_insertionSort (fun i j : Nat => p.getD j 0 ≤ p.getD i 0) (List.range p.length)).imp ?_
  intro i j hij x y hx hy
  simpa [List.getD_eq_getElem?_getD, hx, hy] using hij

example : ∃ out, RankedOf sampleTables out ∧ computePrecisionRecall stableOrder [(1, "b"), (0, "a")] sampleTables [out] [1 / 2, 7 / 10] [1 / 4, 1 / 2]
    = .ok (expectedReport sampleTables [out] [(1, "b"), (0, "a")] [1 / 2, 7 / 10] [1 / 4, 1 / 2]) := by
  obtain ⟨out, _, h⟩ := rankedOf_file sampleTables _ (Verif.Cache.chunksOf_isBatching 3) 10 20
  refine ⟨out, h, C60_report sampleTables_ok h (by simp) stableOrder_ok (by simp) (by decide) (by decide +kernel) ?_ (by simp) (by simp)⟩
  intro l
  have := C28_groundtruths sampleTables_ok l
  rw [this]
  refine lt_of_le_of_lt (List.Sublist.length_le (List.dedup_sublist _)) ?_
  rw [List.length_map]
  refine lt_of_le_of_lt (List.length_filter_le _ _) ?_
  decide +kernel

example : f1 (precision 3 1) (recall 3 5) = 2 / 3 := by
  rw [f1_eq (by norm_num) (by norm_num)]
  norm_num

end Verif.Detection
