import Verif.Detection.ReportMetrics
import Verif.Detection.ComposeProps

/-!
# C18: results at one threshold do not depend on the other thresholds requested (`object_detection/evaluator.py` 415-516)
-/

namespace Verif.Detection

open Verif.Shared (extractLabels)

/-- The parameters of the metric belong to a request with these thresholds. -/
def Asked (ious scores : List Rat) : DMetric → Prop
  | .ap _ t _ | .mAP _ t | .prCurve _ _ t _ => t ∈ ious
  | .apOverIous _ ts _ | .mAPOverIous _ ts => ts = ious
  | .ar _ ts s _ | .mAR _ ts s => ts = ious ∧ s ∈ scores
  | .arOverScores _ ss ts _ | .mAROverScores _ ss ts => ts = ious ∧ ss = scores
  | .counts _ _ _ _ t s | .precision _ _ t s | .recall _ _ t s | .f1 _ _ t s => t ∈ ious ∧ s ∈ scores

/-- The value of the metric is the one of its own parameters. -/
def Right (tables : List (List Row)) (chunks : List (List RRow)) (labels : List (Nat × String)) : DMetric → Prop
  | .ap x t v => ∃ lb ∈ labels, lb.2 = v ∧ x = some (apAt tables chunks t (lb.1 : Int))
  | .mAP x t => x = some (mean ((labels.map (fun lb => (lb.1 : Int))).map (apAt tables chunks t)))
  | .apOverIous x ts v => ∃ lb ∈ labels, lb.2 = v ∧ x = some (mean (ts.map (fun t => apAt tables chunks t (lb.1 : Int))))
  | .mAPOverIous x ts => x = some (mean (ts.map (fun t => mean ((labels.map (fun lb => (lb.1 : Int))).map (apAt tables chunks t)))))
  | .ar x ts s v => ∃ lb ∈ labels, lb.2 = v ∧ x = some (mean (ts.map (fun t => recallAt tables chunks t s (lb.1 : Int))))
  | .mAR x ts s => x = some (mean ((labels.map (fun lb => (lb.1 : Int))).map (fun l => mean (ts.map (fun t => recallAt tables chunks t s l)))))
  | .arOverScores x ss ts v => ∃ lb ∈ labels, lb.2 = v ∧
      x = some (mean (ss.map (fun s => mean (ts.map (fun t => recallAt tables chunks t s (lb.1 : Int))))))
  | .mAROverScores x ss ts => x = some (mean (ss.map (fun s => mean ((labels.map (fun lb => (lb.1 : Int))).map (fun l =>
      mean (ts.map (fun t => recallAt tables chunks t s l)))))))
  | .prCurve ps qs t v => ∃ lb ∈ labels, lb.2 = v ∧ ps = interpolated (curveOf t (gtCount tables (lb.1 : Int)) (lb.1 : Int) chunks).prec ∧
      qs = interpolated (curveOf t (gtCount tables (lb.1 : Int)) (lb.1 : Int) chunks).score
  | .counts tp fp fn v t s => ∃ lb ∈ labels, lb.2 = v ∧ tp = tpTotal t s chunks (lb.1 : Int) ∧ fp = fpTotal t s chunks (lb.1 : Int) ∧
      fn = gtCount tables (lb.1 : Int) - tpTotal t s chunks (lb.1 : Int)
  | .precision x v t s => ∃ lb ∈ labels, lb.2 = v ∧ x = precisionOf chunks t s (lb.1 : Int)
  | .recall x v t s => ∃ lb ∈ labels, lb.2 = v ∧ x = recallAt tables chunks t s (lb.1 : Int)
  | .f1 x v t s => ∃ lb ∈ labels, lb.2 = v ∧ x = f1 (precisionOf chunks t s (lb.1 : Int)) (recallAt tables chunks t s (lb.1 : Int))

/-- A metric is in the report if its parameters were requested and its value is the one of its parameters. -/
theorem mem_expected {tables : List (List Row)} {chunks : List (List RRow)} {labels : List (Nat × String)} {ious scores : List Rat} (m : DMetric) :
    m ∈ (expectedReport tables chunks labels ious scores).all ↔ Asked ious scores m ∧ Right tables chunks labels m := by
  simp only [Report.all, expectedReport, List.mem_append, List.mem_map, List.mem_flatMap, List.mem_cons, List.not_mem_nil, or_false]
  cases m <;> simp only [reduceCtorEq, and_false, exists_false, or_false, false_or, Asked, Right] <;> grind

/-- **C18.** Two requests to one evaluator, whatever thresholds they ask for, in any order: both succeed, and a metric of one report whose
parameters were also requested by the other is in the other report. -/
theorem C18_detection (calls : List History) (hv : ∀ x ∈ calls.flatten, DetOk x.1) (hH : HistoryOk calls.flatten)
    (hS : SizesOk (Loader.init.addAll calls)) (hne : (Loader.init.addAll calls).labels ≠ [])
    {ftables : List (List FRow)} (hst : Stored (Loader.init.addAll calls).rows ftables)
    {chunks : List (List RRow)} (h : RankedOf (rowsIn ftables) chunks.flatten)
    {order order' : List Rat → List Nat} (ho : IsArgsort order) (ho' : IsArgsort order')
    {ious scores ious' scores' : List Rat} (hi : ious ≠ []) (hs : scores ≠ []) (hi' : ious' ≠ []) (hs' : scores' ≠ []) :
    let labels := (extractLabels (ftables.map (fun t => t.map labelCols))).map (fun x => (x.1.toNat, x.2))
    ∃ R A, computePrecisionRecall order labels (rowsIn ftables) chunks ious scores = .ok R ∧
      computePrecisionRecall order' labels (rowsIn ftables) chunks ious' scores' = .ok A ∧
      (∀ m ∈ R.all, Asked ious scores m) ∧ (∀ m ∈ A.all, Asked ious' scores' m) ∧
      (∀ v ∈ (Loader.init.addAll calls).labels, ∀ t ∈ ious, ∀ s ∈ scores, ∃ x, .recall x v t s ∈ R.all) ∧
      ∀ m, Asked ious scores m → Asked ious' scores' m → (m ∈ R.all ↔ m ∈ A.all) := by
  intro labels
  obtain ⟨hl, e1⟩ := C60_end_to_end calls hv hH hS hne hst h rfl ho hi hs
  obtain ⟨_, e2⟩ := C60_end_to_end calls hv hH hS hne hst h rfl ho' hi' hs'
  refine ⟨_, _, e1, e2, ?_, ?_, ?_, ?_⟩
  · intro m hm
    exact ((mem_expected m).1 hm).1
  · intro m hm
    exact ((mem_expected m).1 hm).1
  · intro v hv t ht s hs
    obtain ⟨k, hk⟩ := List.getElem?_of_mem hv
    exact ⟨_, (mem_expected _).2 ⟨⟨ht, hs⟩, (k, v), (hl (k, v)).2 hk, rfl, rfl⟩⟩
  · intro m a1 a2
    rw [mem_expected, mem_expected]
    tauto

theorem sampleCalls_det : ∀ x ∈ sampleCalls.flatten, DetOk x.1 := by
  intro x hx
  simp only [sampleCalls, List.flatten_cons, List.flatten_nil, List.append_nil, List.cons_append, List.nil_append, List.mem_cons,
    List.not_mem_nil, or_false] at hx
  rcases hx with rfl | rfl <;> constructor <;> simp

theorem sampleCalls_ranked : RankedOf (rowsIn [(Loader.init.addAll sampleCalls).rows.flatten])
    [rankTable ((Loader.init.addAll sampleCalls).rows.flatten.map FRow.row)].flatten := by
  have e : ∀ t : List RRow, [t].flatten = t := by simp
  rw [e]
  exact rankedOf_mem _

/-- The conditions of `C18_detection` are met: the metrics of the sample dataset at one threshold and at two. -/
example : ∃ R A, computePrecisionRecall stableOrder
      ((extractLabels ([(Loader.init.addAll sampleCalls).rows.flatten].map (fun t => t.map labelCols))).map (fun x => (x.1.toNat, x.2)))
      (rowsIn [(Loader.init.addAll sampleCalls).rows.flatten])
      [rankTable ((Loader.init.addAll sampleCalls).rows.flatten.map FRow.row)] [1 / 2] [1 / 4] = .ok R ∧
    computePrecisionRecall stableOrder
      ((extractLabels ([(Loader.init.addAll sampleCalls).rows.flatten].map (fun t => t.map labelCols))).map (fun x => (x.1.toNat, x.2)))
      (rowsIn [(Loader.init.addAll sampleCalls).rows.flatten])
      [rankTable ((Loader.init.addAll sampleCalls).rows.flatten.map FRow.row)] [3 / 4, 1 / 2] [1 / 2, 1 / 4] = .ok A ∧
    ∃ x, .recall x "a" (1 / 2) (1 / 4) ∈ R.all ∧ .recall x "a" (1 / 2) (1 / 4) ∈ A.all := by
  obtain ⟨R, A, h1, h2, _, _, h3, h4⟩ := C18_detection sampleCalls sampleCalls_det sampleCalls_ok.1 sampleCalls_ok.2.2 (by decide +kernel)
    (stored_one _) sampleCalls_ranked stableOrder_ok stableOrder_ok (ious := [1 / 2]) (scores := [1 / 4]) (ious' := [3 / 4, 1 / 2]) (scores' := [1 / 2, 1 / 4])
    (by simp) (by simp) (by simp) (by simp)
  obtain ⟨x, hx⟩ := h3 "a" (by decide +kernel) (1 / 2) (by simp) (1 / 4) (by simp)
  exact ⟨R, A, h1, h2, x, hx, (h4 (.recall x "a" (1 / 2) (1 / 4)) ⟨by simp, by simp⟩ ⟨by simp, by simp⟩).1 hx⟩

end Verif.Detection
