import Verif.Classification.ReportProps
import Verif.Classification.FilteredProps

/-! # C64: the reports of classification with a filter of the datums -/

namespace Verif.Classification

open Verif.Shared

/-- The rows of numbered classifications. -/
def blocks (L : List String) (xs : List (Classif × Nat)) : List Row := (xs.map (fun x => rowsOf L x.2 x.1)).flatten

theorem blocks_apart {L : List String} {x : Classif × Nat} {xs : List (Classif × Nat)} (h : ((x :: xs).map Prod.snd).Nodup) :
    ∀ a ∈ rowsOf L x.2 x.1, ∀ b ∈ blocks L xs, a.datum ≠ b.datum := by
  intro a ha b hb
  rw [datum_rowsOf a ha]
  simp only [blocks, List.mem_flatten, List.mem_map] at hb
  obtain ⟨_, ⟨y, hy, rfl⟩, hb⟩ := hb
  rw [datum_rowsOf b hb]
  rw [List.map_cons, List.nodup_cons] at h
  intro e
  have : x.2 = y.2 := by exact_mod_cast e
  exact h.1 (this ▸ List.mem_map_of_mem hy)

theorem cnt_numbered {L : List String} (hL : L.length ≤ 100000) {l : String} (hl : l ∈ L) (h : Bool) (t : Rat) (xs : List (Classif × Nat)) :
    (xs.map Prod.snd).Nodup → (∀ x ∈ xs, Covers L x.1) →
    cnt (blocks L xs) h t (L.idxOf l : Nat)
      = ⟨specTP (xs.map Prod.fst) t h l, specFP (xs.map Prod.fst) t h l, specFN (xs.map Prod.fst) t h l, specTN (xs.map Prod.fst) t h l⟩ := by
  induction xs with
  | nil => intro _ _; rfl
  | cons x xs ih =>
    intro hnd hc
    have hap := blocks_apart (L := L) hnd
    rw [List.map_cons, List.nodup_cons] at hnd
    change cnt (rowsOf L x.2 x.1 ++ blocks L xs) h t _ = _
    rw [cnt_append hap, List.map_cons, spec_cons, cnt_block (hc x (by simp)) hL x.2 h t hl, ih hnd.2 (fun d hd => hc d (by simp [hd]))]

theorem cm_numbered {L : List String} (h : Bool) (t : Rat) {g p : String} (hg : g ∈ L) (hp : p ∈ L) (xs : List (Classif × Nat)) :
    (xs.map Prod.snd).Nodup → (∀ x ∈ xs, Covers L x.1) →
    cmC (blocks L xs) [t] h (L.idxOf g : Nat) (L.idxOf p : Nat) = specCell (xs.map Prod.fst) t h g p ∧
    cmU (blocks L xs) [t] h (L.idxOf g : Nat) = specMissed (xs.map Prod.fst) t h g := by
  induction xs with
  | nil => intro _ _; exact ⟨rfl, rfl⟩
  | cons x xs ih =>
    intro hnd hc
    have hap := blocks_apart (L := L) hnd
    rw [List.map_cons, List.nodup_cons] at hnd
    obtain ⟨i1, i2⟩ := ih hnd.2 (fun d hd => hc d (by simp [hd]))
    change cmC (rowsOf L x.2 x.1 ++ blocks L xs) [t] h _ _ = _ ∧ cmU (rowsOf L x.2 x.1 ++ blocks L xs) [t] h _ = _
    rw [cmC_append hap, cmU_append hap, i1, i2, cmC_block (hc x (by simp)) x.2 h t hg hp, cmU_block (hc x (by simp)) x.2 h t, List.map_cons]
    simp only [specCell, specMissed, List.countP_cons, List.countP_nil]
    exact ⟨by omega, by omega⟩

/-- The classifications whose number satisfies the filter. -/
def keptOf (calls : List (List Classif)) (D : Nat → Bool) : List Classif := ((history calls).zipIdx.filter (fun x => D x.2)).map Prod.fst

theorem kept_rows (calls : List (List Classif)) {e : Row → Bool} {D : Nat → Bool} (he : ∀ r, e r = D r.datum.toNat) :
    (Loader.init.addAll calls).rows.flatten.filter e
      = blocks (Loader.init.addAll calls).labels ((history calls).zipIdx.filter (fun x => D x.2)) := by
  rw [rows_reach calls]
  generalize (history calls).zipIdx = xs
  unfold blocks
  induction xs with
  | nil => rfl
  | cons x xs ih =>
    rw [List.map_cons, List.flatten_cons, List.filter_append, ih, List.filter_cons]
    have hb : (rowsOf (Loader.init.addAll calls).labels x.2 x.1).filter e = if D x.2 = true then rowsOf (Loader.init.addAll calls).labels x.2 x.1 else [] := by
      have : ∀ r ∈ rowsOf (Loader.init.addAll calls).labels x.2 x.1, e r = D x.2 := by
        intro r hr
        rw [he, datum_rowsOf r hr, Int.toNat_natCast]
      split
      · next hd => exact List.filter_eq_self.2 (fun r hr => (this r hr).trans hd)
      · next hd => exact List.filter_eq_nil_iff.2 (fun r hr => by rw [this r hr]; exact hd)
    rw [hb]
    split <;> simp

theorem kept_nodup (calls : List (List Classif)) (D : Nat → Bool) :
    (((history calls).zipIdx.filter (fun x => D x.2)).map Prod.snd).Nodup := by
  apply List.Sublist.nodup (List.filter_sublist.map _)
  rw [List.zipIdx_map_snd]
  exact List.nodup_range'

theorem kept_covers (calls : List (List Classif)) (hv : ∀ c ∈ calls.flatten, c.valid = true) (D : Nat → Bool) :
    ∀ x ∈ (history calls).zipIdx.filter (fun x => D x.2), Covers (Loader.init.addAll calls).labels x.1 := by
  intro x hx
  apply covers_reach calls hv
  have := (List.mem_filter.1 hx).1
  rw [List.mem_zipIdx_iff_getElem?] at this
  exact List.mem_of_getElem? this

theorem inRange_kept (calls : List (List Classif)) (e : Row → Bool) :
    InRange ((Loader.init.addAll calls).rows.flatten.filter e) (Loader.init.addAll calls).labels.length :=
  fun r hr => inRange_reach calls r (List.mem_of_mem_filter hr)

theorem counts_kept (calls : List (List Classif)) (hv : ∀ c ∈ calls.flatten, c.valid = true)
    (hL : (Loader.init.addAll calls).labels.length ≤ 100000) {frags : List (List Row)}
    (hf : FragmentsOf frags (Loader.init.addAll calls).rows.flatten) {e : Row → Bool} {D : Nat → Bool} (he : ∀ r, e r = D r.datum.toNat)
    (ts : List Rat) (hm : Bool) :
    evalCounts (frags.map (fun f => f.filter e)) ts hm (Loader.init.addAll calls).labels.length
      = some (ts.map (fun t => (Loader.init.addAll calls).labels.map (fun l =>
          ⟨specTP (keptOf calls D) t hm l, specFP (keptOf calls D) t hm l, specFN (keptOf calls D) t hm l, specTN (keptOf calls D) t hm l⟩))) := by
  rw [evalCounts_eq (inRange_kept calls e) (fragments_filter hf e), kept_rows calls he]
  congr 1
  apply List.map_congr_left
  intro t _
  refine List.ext_getElem (by simp) ?_
  intro j h1 h2
  have hj : j < (Loader.init.addAll calls).labels.length := by simpa using h2
  rw [List.getElem_map, List.getElem_map, List.getElem_range]
  have := cnt_numbered hL (List.getElem_mem hj) hm t _ (kept_nodup calls D) (kept_covers calls hv D)
  rw [(linv_reach calls).nodup.idxOf_getElem j hj] at this
  exact this

theorem cm_kept (calls : List (List Classif)) (hv : ∀ c ∈ calls.flatten, c.valid = true) {frags : List (List Row)}
    (hf : FragmentsOf frags (Loader.init.addAll calls).rows.flatten) {e : Row → Bool} {D : Nat → Bool} (he : ∀ r, e r = D r.datum.toNat)
    (t : Rat) (hm : Bool) :
    evalCM (frags.map (fun f => f.filter e)) [t] hm (Loader.init.addAll calls).labels.length
      = some [⟨(Loader.init.addAll calls).labels.map (fun g => (Loader.init.addAll calls).labels.map (fun p => specCell (keptOf calls D) t hm g p)),
               (Loader.init.addAll calls).labels.map (fun g => specMissed (keptOf calls D) t hm g)⟩] := by
  rw [evalCM_eq (inRange_kept calls e) (fragments_filter hf e) (by simp), kept_rows calls he]
  have hpre : prefixes [t] = [[t]] := rfl
  rw [hpre, List.map_cons, List.map_nil]
  have hnd := (linv_reach calls).nodup
  congr 2
  unfold cmTab
  rw [CM.mk.injEq]
  constructor
  · refine List.ext_getElem (by simp) ?_
    intro i h1 h2
    have hi : i < (Loader.init.addAll calls).labels.length := by simpa using h2
    rw [List.getElem_map, List.getElem_map, List.getElem_range]
    refine List.ext_getElem (by simp) ?_
    intro j h3 h4
    have hj : j < (Loader.init.addAll calls).labels.length := by simpa using h4
    rw [List.getElem_map, List.getElem_map, List.getElem_range]
    have := (cm_numbered hm t (List.getElem_mem hi) (List.getElem_mem hj) _ (kept_nodup calls D) (kept_covers calls hv D)).1
    rw [hnd.idxOf_getElem i hi, hnd.idxOf_getElem j hj] at this
    exact this
  · refine List.ext_getElem (by simp) ?_
    intro i h1 h2
    have hi : i < (Loader.init.addAll calls).labels.length := by simpa using h2
    rw [List.getElem_map, List.getElem_map, List.getElem_range]
    have := (cm_numbered hm t (List.getElem_mem hi) (List.getElem_mem hi) _ (kept_nodup calls D) (kept_covers calls hv D)).2
    rw [hnd.idxOf_getElem i hi] at this
    exact this

/-- **C64 (precision and recall with a datum filter).** For every history, cut into tables, non-empty list of thresholds and filter
decided by the datum: the report succeeds. Counts, precision and recall are those of the accepted datums, for every label of the data.
Accuracy is the number of right predictions among the accepted datums over the number of all datums (see C17). -/
theorem C64_datums_report (calls : List (List Classif)) (hv : ∀ c ∈ calls.flatten, c.valid = true)
    (hL : (Loader.init.addAll calls).labels.length ≤ 100000) {frags : List (List Row)}
    (hf : FragmentsOf frags (Loader.init.addAll calls).rows.flatten) {ts : List Rat} (hts : ts ≠ []) (hm : Bool)
    {e : Row → Bool} {D : Nat → Bool} (he : ∀ r, e r = D r.datum.toNat) :
    let cs := ((history calls).zipIdx.filter (fun x => D x.2)).map Prod.fst
    let labels := evalLabels frags
    ∃ R, reportPrecisionRecall frags ts hm labels (some e) = some R ∧
      R.accuracy = ts.map (fun t =>
        ⟨"Accuracy", .number (((cs.map (fun c => specTP [c] t hm c.gt)).sum : Rat) / (history calls).length), some t, some hm, none⟩) ∧
      R.counts = labels.flatMap (fun lb => ts.map (fun t =>
        ⟨"Counts", .counts (specTP cs t hm lb.2) (specFP cs t hm lb.2) (specFN cs t hm lb.2) (specTN cs t hm lb.2), some t, some hm,
          some lb.2⟩)) ∧
      R.precision = labels.flatMap (fun lb => ts.map (fun t =>
        ⟨"Precision", .number ((specTP cs t hm lb.2 : Rat) / (specTP cs t hm lb.2 + specFP cs t hm lb.2)), some t, some hm, some lb.2⟩)) ∧
      R.recall = labels.flatMap (fun lb => ts.map (fun t =>
        ⟨"Recall", .number ((specTP cs t hm lb.2 : Rat) / (specTP cs t hm lb.2 + specFN cs t hm lb.2)), some t, some hm, some lb.2⟩)) := by
  intro cs labels
  obtain ⟨h1, h2, h3⟩ := evalLabels_reach calls hv hf
  set L := (Loader.init.addAll calls).labels with hLdef
  have hc : computePrecisionRecall frags ts hm labels.length (some e)
      = some (ts.map (fun t => toMetrics (history calls).length (L.map (fun l =>
          ⟨specTP cs t hm l, specFP cs t hm l, specFN cs t hm l, specTN cs t hm l⟩)))) := by
    unfold computePrecisionRecall
    rw [if_neg (by simpa using hts)]
    dsimp only
    rw [show labels.length = L.length from h1, counts_kept calls hv hL hf he ts hm, numberOfDatums_reach calls hv hf]
    simp only [Option.map_some, List.map_map, Function.comp_def]
    rfl
  refine ⟨_, by
    unfold reportPrecisionRecall
    rw [hc, Option.bind_some, unpackPrecisionRecall_eq h2], ?_, rfl, ?_, ?_⟩
  · apply List.map_congr_left
    intro t _
    rw [accuracy_eq, List.map_map]
    have hcov : ∀ c ∈ cs, c.gt ∈ L := by
      intro c hc
      obtain ⟨x, hx, rfl⟩ := List.mem_map.1 hc
      exact (kept_covers calls hv D x hx).1
    have := sum_specTP (linv_reach calls).nodup cs hcov t hm
    unfold Metric.accuracy
    rw [← this]
    rfl
  · simp only [perCell, precision_eq]
    rfl
  · simp only [perCell, recall_eq]
    rfl

/-- **C64 (confusion matrices with a datum filter).** As without a filter, with the numbers of the accepted datums. -/
theorem C64_datums_confusion_matrix (calls : List (List Classif)) (hv : ∀ c ∈ calls.flatten, c.valid = true)
    (hne : (Loader.init.addAll calls).labels ≠ []) {frags : List (List Row)}
    (hf : FragmentsOf frags (Loader.init.addAll calls).rows.flatten) {ts : List Rat} (hts : ts ≠ []) (hm : Bool)
    {e : Row → Bool} {D : Nat → Bool} (he : ∀ r, e r = D r.datum.toNat) :
    let cs := ((history calls).zipIdx.filter (fun x => D x.2)).map Prod.fst
    let labels := evalLabels frags
    ∃ R, reportConfusionMatrix frags ts hm labels (some e) = some R ∧ R.length = ts.length ∧
      ∀ (k : Nat) (t m : Rat), ts[k]? = some t → m ∈ ts.take (k + 1) → (∀ x ∈ ts.take (k + 1), x ≤ m) →
        R[k]? = some ⟨"ConfusionMatrix", .matrix
          (labels.map (fun g => (g.2, labels.map (fun p => (p.2, specCell cs m hm g.2 p.2)))))
          (labels.map (fun g => (g.2, specMissed cs m hm g.2))), some t, some hm, none⟩ := by
  intro cs labels
  obtain ⟨h1, h2, h3⟩ := evalLabels_reach calls hv hf
  have hat : ∀ (M : Rat), evalCM (frags.map (fun f => f.filter e)) [M] hm (Loader.init.addAll calls).labels.length = _ :=
    fun M => cm_kept calls hv hf he M hm
  obtain ⟨Ms, hMs⟩ : ∃ Ms, evalCM (frags.map (fun f => f.filter e)) ts hm (Loader.init.addAll calls).labels.length = some Ms :=
    ⟨_, evalCM_eq (inRange_kept calls e) (fragments_filter hf e) hts hm⟩
  obtain ⟨R, hR, hlen, hk⟩ := unpack_running (labels := labels) (linv_reach calls).nodup hne h1 h2 h3 hts hm hMs hat
  refine ⟨R, ?_, hlen, hk⟩
  unfold reportConfusionMatrix
  dsimp only
  rw [if_neg (by simpa using hts), show labels.length = _ from h1, hMs, Option.bind_some]
  exact hR

/-- A filter that rejects the second of the three datums of `sample`. -/
example : (∀ r : Row, (fun r : Row => decide (r.datum.toNat ≠ 1)) r = (fun k => decide (k ≠ 1)) r.datum.toNat) ∧
    (∀ c ∈ sample.flatten, c.valid = true) ∧ (Loader.init.addAll sample).labels ≠ [] ∧
    ((history sample).zipIdx.filter (fun x => (fun k => decide (k ≠ 1)) x.2)).length = 2 ∧ (history sample).length = 3 ∧
    FragmentsOf (Loader.init.addAll sample).rows (Loader.init.addAll sample).rows.flatten :=
  ⟨fun _ => rfl, by decide +kernel, by decide +kernel, by decide +kernel, by decide +kernel, ⟨List.Perm.refl _, by decide +kernel⟩⟩

example : let e : Row → Bool := fun r => decide (r.datum.toNat ≠ 1)
    let labels := [(0, "cat"), (1, "dog"), (2, "bird")]
    (reportPrecisionRecall (Loader.init.addAll sample).rows [0] true labels (some e)).map (fun R => (R.accuracy, R.counts)) =
      some ([⟨"Accuracy", .number (1/3), some 0, some true, none⟩],
        [⟨"Counts", .counts 1 0 0 0, some 0, some true, some "cat"⟩, ⟨"Counts", .counts 0 0 1 1, some 0, some true, some "dog"⟩,
          ⟨"Counts", .counts 0 1 0 0, some 0, some true, some "bird"⟩]) ∧
    reportConfusionMatrix (Loader.init.addAll sample).rows [0] true labels (some e) =
      some [⟨"ConfusionMatrix", .matrix [("cat", [("cat", 1), ("dog", 0), ("bird", 0)]), ("dog", [("cat", 0), ("dog", 0), ("bird", 1)]),
        ("bird", [("cat", 0), ("dog", 0), ("bird", 0)])] [("cat", 0), ("dog", 0), ("bird", 0)], some 0, some true, none⟩] := by
  decide +kernel

end Verif.Classification
