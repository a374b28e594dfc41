import Verif.Detection.ThresholdProps
import Verif.Detection.ReloadProps

/-!
# C108: a label that occurs among the ground truths only, or among the predictions only, scores zero
(`object_detection/evaluator.py` 415-516, `object_detection/computation.py` 382-610)
-/

namespace Verif.Detection

open Verif.Shared (extractLabels)

/-- No ground truth that was added has the label. -/
def NeverTrue (H : History) (v : String) : Prop := ∀ x ∈ H, ∀ a ∈ x.1.gts, v ∉ a.labels

/-- No prediction that was added has the label. -/
def NeverPredicted (H : History) (v : String) : Prop := ∀ x ∈ H, ∀ a ∈ x.1.pds, v ∉ a.labels

/-- The metric is about the label and has the value zero; its counts have no true positives, `fp` false positives and `fn` missed ones. -/
def Zero (v : String) (fp fn : Nat → Prop) : DMetric → Prop
  | .ap x _ w | .apOverIous x _ w | .ar x _ _ w | .arOverScores x _ _ w => w = v → x = some 0
  | .precision x w _ _ | .recall x w _ _ | .f1 x w _ _ => w = v → x = 0
  | .prCurve ps _ _ w => w = v → ps = List.replicate 101 0
  | .counts tp a b w _ _ => w = v → tp = 0 ∧ fp a ∧ fn b
  | .mAP _ _ | .mAPOverIous _ _ | .mAR _ _ _ | .mAROverScores _ _ _ => True

theorem gtCount_never {calls : List History} (hv : ∀ x ∈ calls.flatten, DetOk x.1) (hH : HistoryOk calls.flatten)
    (hS : SizesOk (Loader.init.addAll calls)) {ftables : List (List FRow)} (hst : Stored (Loader.init.addAll calls).rows ftables)
    {v : String} (h : NeverTrue calls.flatten v) : gtCount (rowsIn ftables) ((Loader.init.addAll calls).labels.idxOf v : Nat) = 0 := by
  rw [C54_groundtruths (holding_of_stored hst) hH hS.labels v, selected_all]
  unfold gtNumber
  rw [List.sum_eq_zero]
  intro n hn
  obtain ⟨x, hx, rfl⟩ := List.mem_map.1 hn
  rw [List.length_eq_zero_iff, List.filter_eq_nil_iff]
  intro a ha
  have h1 := h x hx a ha
  have h2 := (hv x hx).gts a ha
  cases hl : a.labels with
  | nil => exact absurd hl h2
  | cons w ws =>
    rw [hl] at h1
    rw [decide_eq_true_eq, List.headD_cons]
    rintro rfl
    exact h1 (by simp)

theorem ranked_never {calls : List History} (hH : HistoryOk calls.flatten)
    (hS : SizesOk (Loader.init.addAll calls)) {ftables : List (List FRow)} (hst : Stored (Loader.init.addAll calls).rows ftables)
    {chunks : List (List RRow)} (hr : RankedOf (rowsIn ftables) chunks.flatten)
    {v : String} (h : NeverPredicted calls.flatten v) : ∀ r ∈ chunks.flatten, r.row.pl ≠ ((Loader.init.addAll calls).labels.idxOf v : Nat) := by
  intro r hrm he
  have hhold := holding_of_stored hst
  obtain ⟨h1, h2, _⟩ := ranked_pd (cacheOk_of_holding hhold hH hS.labels) hr hrm
  obtain ⟨k, x, f, _, hk, hf, hfr⟩ := (hhold.rows r.row).1 h1
  have hl := (isRow_labels calls hk hf).2
  have hx := List.mem_of_getElem? hk
  rw [← hfr] at he h2
  have key : ∃ a ∈ x.1.pds, ∃ w ∈ a.labels, f.row.pl = ((Loader.init.addAll calls).labels.idxOf w : Int) ∧ f.pdLabel = some w := by
    rcases hf with ⟨_, _, _, _, rfl⟩ | ⟨p, a, w, c, hp, hz, _, rfl⟩ | ⟨_, _, p, a, _, w, c, _, hp, _, _, hz, rfl⟩
    · exact absurd h2 (by simp [gtRow])
    · exact ⟨a, List.mem_of_getElem? hp, w, (List.of_mem_zip hz).1, rfl, rfl⟩
    · exact ⟨a, List.mem_of_getElem? hp, w, (List.of_mem_zip hz).1, rfl, rfl⟩
  obtain ⟨a, ha, w, hw, e1, e2⟩ := key
  rw [e1] at he
  have : w = v := (List.idxOf_inj (hl w e2)).1 (by exact_mod_cast he)
  exact h x hx a ha (this ▸ hw)

/-- A label without ranked rows has no counts. -/
theorem totals_none {C : List (List RRow)} {l : Int} (h : ∀ r ∈ C.flatten, r.row.pl ≠ l) (t s : Rat) : tpTotal t s C l = 0 ∧ fpTotal t s C l = 0 := by
  have key : ∀ c ∈ C, ∀ x ∈ c.zip (truePositives t s [] c), decide (x.1.row.pl = l) = false := by
    intro c hc x hx
    have := h x.1 (List.mem_flatten.2 ⟨c, hc, (List.of_mem_zip hx).1⟩)
    simpa using this
  constructor
  · unfold tpTotal
    rw [List.sum_eq_zero]
    intro n hn
    obtain ⟨c, hc, rfl⟩ := List.mem_map.1 hn
    unfold tpCount
    rw [List.length_eq_zero_iff, List.filter_eq_nil_iff]
    intro x hx
    simp [key c hc x hx]
  · unfold fpTotal
    rw [List.sum_eq_zero]
    intro n hn
    obtain ⟨c, hc, rfl⟩ := List.mem_map.1 hn
    unfold fpCount
    rw [List.length_eq_zero_iff, List.filter_eq_nil_iff]
    intro x hx
    simp [key c hc x hx]

/-- Without correct rows the curve is zero. -/
theorem curve_zero (t : Rat) (n : Nat) (l : Int) (C : List (List RRow)) (h : correctRows t l C.flatten = 0) :
    interpolated (curveOf t n l C).prec = List.replicate 101 0 ∧ averagePrecision (curveOf t n l C).prec = 0 := by
  unfold correctRows at h
  obtain ⟨h1, h2, h3⟩ := C29_interpolation t n l C _ rfl (by rw [h]; omega)
  have e : interpolated (curveOf t n l C).prec = List.replicate 101 0 := by
    rw [List.eq_replicate_iff]
    refine ⟨h1, ?_⟩
    intro x hx
    obtain ⟨j, hj, rfl⟩ := List.getElem_of_mem hx
    rcases (h2 j hj).2 with ⟨h, _⟩ | ⟨k, _, h'⟩
    · exact h
    · rw [h']
      unfold precisionAt
      have := hits_le_count ((C.flatten.filter (fun r => decide (r.row.pl = l))).map (tpOuter t)) k
      have h0 : hits ((C.flatten.filter (fun r => decide (r.row.pl = l))).map (tpOuter t)) k = 0 := by omega
      rw [h0]
      simp
  refine ⟨e, ?_⟩
  rw [h3, e]
  simp

/-- A label without true positives and with a curve of zeros has zero metrics. -/
theorem right_zero {T : List (List Row)} {C : List (List RRow)} {labels : List (Nat × String)} {v : String} {l : Int}
    (hid : ∀ lb ∈ labels, lb.2 = v → (lb.1 : Int) = l) (htp : ∀ t s, tpTotal t s C l = 0) (hcr : ∀ t, correctRows t l C.flatten = 0)
    {fp fn : Nat → Prop} (hfp : ∀ t s, fp (fpTotal t s C l)) (hfn : fn (gtCount T l)) {m : DMetric} (hr : Right T C labels m) : Zero v fp fn m := by
  have hmean : ∀ ts : List Rat, mean (ts.map (fun _ => (0 : Rat))) = 0 := by
    intro ts
    unfold mean
    simp
  have hap : ∀ t, apAt T C t l = 0 := fun t => (curve_zero t (gtCount T l) l C (hcr t)).2
  have hrec : ∀ t s, recallAt T C t s l = 0 := by
    intro t s
    unfold recallAt recall
    rw [htp]
    simp
  have hpr : ∀ t s, precisionOf C t s l = 0 := by
    intro t s
    unfold precisionOf precision
    rw [htp]
    simp
  have hf : f1 0 0 = 0 := by
    unfold f1
    rw [mul_zero, mul_zero, zero_div, ite_self]
  cases m with
  | mAP | mAPOverIous | mAR | mAROverScores => trivial
  | ap x t w =>
    obtain ⟨lb, hlb, rfl, hx⟩ := hr
    intro he
    rw [hx, hid lb hlb he, hap]
  | apOverIous x ts w =>
    obtain ⟨lb, hlb, rfl, hx⟩ := hr
    intro he
    simp only [hid lb hlb he, hap] at hx
    rw [hx, hmean]
  | ar x ts s w =>
    obtain ⟨lb, hlb, rfl, hx⟩ := hr
    intro he
    simp only [hid lb hlb he, hrec] at hx
    rw [hx, hmean]
  | arOverScores x ss ts w =>
    obtain ⟨lb, hlb, rfl, hx⟩ := hr
    intro he
    simp only [hid lb hlb he, hrec, hmean] at hx
    rw [hx]
  | prCurve ps qs t w =>
    obtain ⟨lb, hlb, rfl, hx, _⟩ := hr
    intro he
    rw [hx, hid lb hlb he]
    exact (curve_zero t _ l C (hcr t)).1
  | counts tp a b w t s =>
    obtain ⟨lb, hlb, rfl, h1, h2, h3⟩ := hr
    intro he
    rw [hid lb hlb he] at h1 h2 h3
    rw [htp] at h1 h3
    subst h1 h2 h3
    exact ⟨rfl, hfp t s, hfn⟩
  | precision x w t s =>
    obtain ⟨lb, hlb, rfl, hx⟩ := hr
    intro he
    rw [hx, hid lb hlb he, hpr]
  | recall x w t s =>
    obtain ⟨lb, hlb, rfl, hx⟩ := hr
    intro he
    rw [hx, hid lb hlb he, hrec]
  | f1 x w t s =>
    obtain ⟨lb, hlb, rfl, hx⟩ := hr
    intro he
    rw [hx, hid lb hlb he, hrec, hpr, hf]

/-- **C108 (detection).** For every sequence of `add_*` calls, storage layout and thresholds: a label that no ground truth has, or that no prediction
has, gets average precision, average recall, precision, recall and F1 zero, no true positives and a precision-recall curve of zeros. Without ground
truths nothing is missed; without predictions nothing is a false positive and all ground truths of the label are missed. -/
theorem C108_detection (calls : List History) (hv : ∀ x ∈ calls.flatten, DetOk x.1) (hH : HistoryOk calls.flatten)
    (hS : SizesOk (Loader.init.addAll calls)) {ftables : List (List FRow)} (hst : Stored (Loader.init.addAll calls).rows ftables)
    {chunks : List (List RRow)} (h : RankedOf (rowsIn ftables) chunks.flatten)
    {order : List Rat → List Nat} (ho : IsArgsort order) {ious scores : List Rat} (hi : ious ≠ []) (hs : scores ≠ [])
    {v : String} (hmem : v ∈ (Loader.init.addAll calls).labels) :
    let labels := (extractLabels (ftables.map (fun t => t.map labelCols))).map (fun x => (x.1.toNat, x.2))
    ∃ R, computePrecisionRecall order labels (rowsIn ftables) chunks ious scores = .ok R ∧
      (∀ t ∈ ious, ∀ s ∈ scores, ∃ tp fp fn x y, .counts tp fp fn v t s ∈ R.all ∧ .ap x t v ∈ R.all ∧ .recall y v t s ∈ R.all) ∧
      (NeverTrue calls.flatten v → ∀ m ∈ R.all, Zero v (fun _ => True) (fun fn => fn = 0) m) ∧
      (NeverPredicted calls.flatten v → ∀ m ∈ R.all, Zero v (fun fp => fp = 0) (fun fn => fn = gtNumber calls.flatten v) m) := by
  intro labels
  obtain ⟨hl, e1⟩ := C60_end_to_end calls hv hH hS (List.ne_nil_of_mem hmem) hst h rfl ho hi hs
  have hc := cacheOk_of_holding (holding_of_stored hst) hH hS.labels
  have hnd : (Loader.init.addAll calls).labels.Nodup := (linv_addAll calls).nodup
  have hid : ∀ lb ∈ labels, lb.2 = v → (lb.1 : Int) = ((Loader.init.addAll calls).labels.idxOf v : Nat) := by
    intro lb hlb he
    have h1 := (hl lb).1 hlb
    rw [he] at h1
    obtain ⟨hlt, h2⟩ := List.getElem?_eq_some_iff.1 h1
    rw [← h2, hnd.idxOf_getElem]
  have hsub := fun t => correctRows_le hc h t ((Loader.init.addAll calls).labels.idxOf v : Nat)
  obtain ⟨k, hk⟩ := List.getElem?_of_mem hmem
  have hlk := (hl (k, v)).2 hk
  refine ⟨_, e1, fun t ht s hs => ⟨_, _, _, _, _, (mem_expected _).2 ⟨⟨ht, hs⟩, (k, v), hlk, rfl, rfl, rfl, rfl⟩,
    (mem_expected _).2 ⟨ht, (k, v), hlk, rfl, rfl⟩, (mem_expected _).2 ⟨⟨ht, hs⟩, (k, v), hlk, rfl, rfl⟩⟩, ?_, ?_⟩
  · intro hno m hm
    have hg := gtCount_never hv hH hS hst hno
    refine right_zero hid ?_ ?_ (fun _ _ => trivial) hg ((mem_expected m).1 hm).2
    · intro t s
      have := C28_bound hc h t s ((Loader.init.addAll calls).labels.idxOf v : Nat) chunks rfl
      omega
    · intro t
      have := hsub t
      omega
  · intro hno m hm
    have hr := ranked_never hH hS hst h hno
    refine right_zero hid (fun t s => (totals_none hr t s).1) ?_ (fun t s => (totals_none hr t s).2) ?_ ((mem_expected m).1 hm).2
    · intro t
      unfold correctRows
      rw [List.filter_eq_nil_iff.2 (by intro r hrm; simpa using hr r hrm)]
      rfl
    · have := C54_groundtruths (holding_of_stored hst) hH hS.labels v
      rw [selected_all] at this
      exact this

/-- The conditions of `C108_detection` are met: in the sample dataset "c" is never predicted and "b" is never true. -/
example : NeverPredicted sampleCalls.flatten "c" ∧ NeverTrue sampleCalls.flatten "b" ∧ gtNumber sampleCalls.flatten "c" = 1 ∧
    "c" ∈ (Loader.init.addAll sampleCalls).labels ∧ "b" ∈ (Loader.init.addAll sampleCalls).labels := by
  refine ⟨?_, ?_, by decide +kernel, by decide +kernel, by decide +kernel⟩
  · unfold NeverPredicted
    simp [sampleCalls]
  · unfold NeverTrue
    simp [sampleCalls]

end Verif.Detection
