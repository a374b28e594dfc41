import Verif.Classification.Report
import Verif.Classification.MetricsProps
import Verif.Classification.PairsProps
import Verif.Classification.FilterProps
import Verif.Shared.LabelKeys

/-! # C64: the metric lists of classification -/

namespace Verif.Classification

open Verif.Shared

theorem mapM_option_eq {α β : Type} {f : α → Option β} {g : α → β} {l : List α} (h : ∀ x ∈ l, f x = some (g x)) :
    l.mapM f = some (l.map g) := by
  induction l with
  | nil => rfl
  | cons a l ih =>
    rw [List.mapM_cons, h a (by simp), ih (fun x hx => h x (by simp [hx]))]
    rfl

theorem mapM_zipIdx {α β : Type} {f : α × Nat → Option β} {g : α → β} {l : List α}
    (h : ∀ (i : Nat) (x : α), l[i]? = some x → f (x, i) = some (g x)) : l.zipIdx.mapM f = some (l.map g) := by
  rw [mapM_option_eq (g := fun x => g x.1)]
  · congr 1
    apply List.ext_getElem
    · simp
    · intro i h1 h2
      simp
  · intro x hx
    rw [List.mem_zipIdx_iff_getElem?] at hx
    exact h x.2 x.1 hx

/-- The list over all labels, and for each label over all thresholds. -/
def perCell (labels : List (Nat × String)) (ts : List Rat) (f : String → Rat → Metric) : List Metric :=
  labels.flatMap (fun lb => ts.map (fun t => f lb.2 t))

theorem unpackPrecisionRecall_eq {ts : List Rat} {labels : List (Nat × String)} {L : List String} (hl : ∀ lb ∈ labels, L[lb.1]? = some lb.2)
    (hm : Bool) (N : Nat) (c : Rat → String → Counts) :
    unpackPrecisionRecall (ts.map (fun t => toMetrics N (L.map (c t)))) ts hm labels
      = some ⟨ts.map (fun t => Metric.accuracy (accuracy (L.map (c t)) N) t hm),
          perCell labels ts (fun l t => Metric.counts (c t l).tp (c t l).fp (c t l).fn (c t l).tn t hm l),
          perCell labels ts (fun l t => Metric.precision (precision (c t l)) t hm l),
          perCell labels ts (fun l t => Metric.recall (recall (c t l)) t hm l),
          perCell labels ts (fun l t => Metric.f1Score (f1 (precision (c t l)) (recall (c t l))) t hm l)⟩ := by
  unfold unpackPrecisionRecall
  rw [mapM_zipIdx (g := fun t => Metric.accuracy (accuracy (L.map (c t)) N) t hm) (by
    intro i t hi
    simp only [List.getElem?_map, hi, Option.map_some]
    rfl)]
  rw [mapM_option_eq (g := fun lb => ts.map (fun t =>
    (Metric.counts (c t lb.2).tp (c t lb.2).fp (c t lb.2).fn (c t lb.2).tn t hm lb.2, Metric.precision (precision (c t lb.2)) t hm lb.2,
      Metric.recall (recall (c t lb.2)) t hm lb.2, Metric.f1Score (f1 (precision (c t lb.2)) (recall (c t lb.2))) t hm lb.2))) (by
    intro lb hlb
    apply mapM_zipIdx
    intro i t hi
    simp only [unpackCell, List.getElem?_map, hi, Option.map_some, toMetrics, hl lb hlb, Option.bind_eq_bind, Option.bind_some])]
  simp only [Option.bind_eq_bind, Option.bind_some, perCell, List.flatMap_def, List.map_flatten, List.map_map, Function.comp_def]

/-- The labels of the evaluator: `extract_labels` over the tables of the cache. -/
def evalLabels (tables : List (List Row)) : List (Nat × String) := numbered (extractLabels (tables.map (fun t => t.map labelCols)))

theorem evalLabels_reach (calls : List (List Classif)) (hv : ∀ c ∈ calls.flatten, c.valid = true)
    {frags : List (List Row)} (hf : FragmentsOf frags (Loader.init.addAll calls).rows.flatten) :
    (evalLabels frags).length = (Loader.init.addAll calls).labels.length ∧
    (∀ lb ∈ evalLabels frags, (Loader.init.addAll calls).labels[lb.1]? = some lb.2) ∧
    ((evalLabels frags).map Prod.snd).Perm (Loader.init.addAll calls).labels := by
  obtain ⟨h1, _, h3⟩ := C50_classification calls hv frags hf.perm
  exact ⟨numbered_length h1 h3, fun lb hlb => numbered_label h1 h3 hlb, numbered_names h1 h3⟩

theorem precision_eq (c : Counts) : precision c = (c.tp : Rat) / (c.tp + c.fp) := by
  unfold precision
  split
  · push_cast; rfl
  · next h =>
    have h1 : c.tp = 0 := by omega
    simp [h1]

theorem recall_eq (c : Counts) : recall c = (c.tp : Rat) / (c.tp + c.fn) := by
  unfold recall
  split
  · push_cast; rfl
  · next h =>
    have h1 : c.tp = 0 := by omega
    simp [h1]

theorem accuracy_eq (row : List Counts) (n : Nat) : accuracy row n = ((row.map Counts.tp).sum : Rat) / n := by
  unfold accuracy
  split
  · next h => simp [h]
  · rfl

/-- **C64 (precision and recall).** For every history of `add_data` calls, every cut of the rows into datum-aligned tables and every
non-empty list of thresholds, the report succeeds. It has one accuracy per threshold, in the given order: the number of
predictions of the ground-truth label over the number of datums. For each label of the data (each once, by name) and each
threshold it has the counts of this label and threshold, the precision and the recall. A quotient with denominator 0 is 0. -/
theorem C64_report (calls : List (List Classif)) (hv : ∀ c ∈ calls.flatten, c.valid = true)
    (hL : (Loader.init.addAll calls).labels.length ≤ 100000) {frags : List (List Row)}
    (hf : FragmentsOf frags (Loader.init.addAll calls).rows.flatten) {ts : List Rat} (hts : ts ≠ []) (hm : Bool) :
    let cs := history calls
    let labels := evalLabels frags
    (labels.map Prod.snd).Perm (Loader.init.addAll calls).labels ∧
    ∃ R, reportPrecisionRecall frags ts hm labels = some R ∧
      R.accuracy = ts.map (fun t =>
        ⟨"Accuracy", .number (((cs.map (fun c => specTP [c] t hm c.gt)).sum : Rat) / cs.length), some t, some hm, none⟩) ∧
      R.counts = labels.flatMap (fun lb => ts.map (fun t =>
        ⟨"Counts", .counts (specTP cs t hm lb.2) (specFP cs t hm lb.2) (specFN cs t hm lb.2) (specTN cs t hm lb.2), some t, some hm,
          some lb.2⟩)) ∧
      R.precision = labels.flatMap (fun lb => ts.map (fun t =>
        ⟨"Precision", .number ((specTP cs t hm lb.2 : Rat) / (specTP cs t hm lb.2 + specFP cs t hm lb.2)), some t, some hm, some lb.2⟩)) ∧
      R.recall = labels.flatMap (fun lb => ts.map (fun t =>
        ⟨"Recall", .number ((specTP cs t hm lb.2 : Rat) / (specTP cs t hm lb.2 + specFN cs t hm lb.2)), some t, some hm, some lb.2⟩)) ∧
      ((∀ t ∈ ts, ∀ lb ∈ labels, specTP cs t hm lb.2 + specFP cs t hm lb.2 ≤ 1000000000) →
        R.f1 = labels.flatMap (fun lb => ts.map (fun t =>
          ⟨"F1", .number (2 * (specTP cs t hm lb.2 : Rat) / (2 * specTP cs t hm lb.2 + specFP cs t hm lb.2 + specFN cs t hm lb.2)),
            some t, some hm, some lb.2⟩))) := by
  intro cs labels
  obtain ⟨h1, h2, h3⟩ := evalLabels_reach calls hv hf
  refine ⟨h3, ?_⟩
  set L := (Loader.init.addAll calls).labels with hLdef
  have hc : computePrecisionRecall frags ts hm labels.length none
      = some (ts.map (fun t => toMetrics cs.length (L.map (fun l =>
          ⟨specTP cs t hm l, specFP cs t hm l, specFN cs t hm l, specTN cs t hm l⟩)))) := by
    unfold computePrecisionRecall
    rw [if_neg (by simpa using hts)]
    dsimp only
    rw [show labels.length = L.length from h1, C13_counts calls hv hL frags hf ts hm, numberOfDatums_reach calls hv hf]
    simp only [Option.map_some, List.map_map, Function.comp_def]
    rfl
  refine ⟨_, by
    unfold reportPrecisionRecall
    rw [hc, Option.bind_some, unpackPrecisionRecall_eq h2], ?_, rfl, ?_, ?_, ?_⟩
  · apply List.map_congr_left
    intro t _
    rw [accuracy_eq, List.map_map]
    have := sum_specTP (linv_reach calls).nodup cs (fun c hc => (covers_reach calls hv c hc).1) t hm
    unfold Metric.accuracy
    rw [← this]
    rfl
  · simp only [perCell, precision_eq]
    rfl
  · simp only [perCell, recall_eq]
    rfl
  · intro hb
    simp only [perCell]
    rw [List.flatMap_def, List.flatMap_def]
    congr 1
    apply List.map_congr_left
    intro lb hlb
    apply List.map_congr_left
    intro t ht
    have hF := (C16_f1_partial ⟨specTP cs t hm lb.2, specFP cs t hm lb.2, specFN cs t hm lb.2, specTN cs t hm lb.2⟩ (hb t ht lb hlb)).2.2.2
    unfold Metric.f1Score
    congr 2
    by_cases h0 : (2 * (specTP cs t hm lb.2 : Rat) + specFP cs t hm lb.2 + specFN cs t hm lb.2) = 0
    · have : specTP cs t hm lb.2 = 0 := by
        have : (2 * specTP cs t hm lb.2 + specFP cs t hm lb.2 + specFN cs t hm lb.2 : Nat) = 0 := by exact_mod_cast h0
        omega
      rw [h0, div_zero]
      simp [precision, recall, f1, this]
    · rw [eq_div_iff h0]
      exact hF

/-! ## Confusion matrices -/

theorem putCell_rest {L : List String} (f : String → String → Nat) (g : String → Nat) {lb : Nat × String} (hlb : L[lb.1]? = some lb.2)
    {d : List (String × List (String × Nat))} (h : lb.2 ∉ d.map Prod.fst) :
    ∀ (qs : List (Nat × String)) (done : List (String × Nat)), (∀ q ∈ qs, L[q.1]? = some q.2) → (qs.map Prod.snd).Nodup →
      (∀ q ∈ qs, q.2 ∉ done.map Prod.fst) →
      qs.foldlM (putCell ⟨L.map (fun g => L.map (fun p => f g p)), L.map g⟩ lb) (d ++ [(lb.2, done)])
        = some (d ++ [(lb.2, done ++ qs.map (fun q => (q.2, f lb.2 q.2)))]) := by
  intro qs
  induction qs with
  | nil => intro done _ _ _; simp
  | cons q qs ih =>
    intro done hq hnd hdone
    rw [List.map_cons, List.nodup_cons] at hnd
    rw [List.foldlM_cons]
    have h1 : putCell ⟨L.map (fun g => L.map (fun p => f g p)), L.map g⟩ lb (d ++ [(lb.2, done)]) q
        = some (d ++ [(lb.2, done ++ [(q.2, f lb.2 q.2)])]) := by
      simp only [putCell, List.getElem?_map, hlb, hq q (by simp), Option.map_some, Option.bind_eq_bind, Option.bind_some]
      rw [if_pos (by simp), dictPut_lookup h, dictPut_last h, Option.getD_some, dictPut_new (hdone q (by simp))]
    rw [h1]
    change qs.foldlM _ _ = _
    rw [ih (done ++ [(q.2, f lb.2 q.2)]) (fun x hx => hq x (by simp [hx])) hnd.2 (by
      intro x hx hmem
      rw [List.map_append, List.mem_append] at hmem
      rcases hmem with hm | hm
      · exact hdone x (by simp [hx]) hm
      · have : x.2 = q.2 := by simpa using hm
        exact hnd.1 (this ▸ List.mem_map_of_mem (f := Prod.snd) hx))]
    simp

theorem putCell_all {L : List String} (f : String → String → Nat) (g : String → Nat) {labels : List (Nat × String)} (hne : labels ≠ [])
    (hl : ∀ lb ∈ labels, L[lb.1]? = some lb.2) (hnd : (labels.map Prod.snd).Nodup) {lb : Nat × String} (hlb : L[lb.1]? = some lb.2)
    {d : List (String × List (String × Nat))} (h : lb.2 ∉ d.map Prod.fst) :
    labels.foldlM (putCell ⟨L.map (fun g => L.map (fun p => f g p)), L.map g⟩ lb) d
      = some (d ++ [(lb.2, labels.map (fun q => (q.2, f lb.2 q.2)))]) := by
  cases labels with
  | nil => exact absurd rfl hne
  | cons q qs =>
    rw [List.map_cons, List.nodup_cons] at hnd
    rw [List.foldlM_cons]
    have h1 : putCell ⟨L.map (fun g => L.map (fun p => f g p)), L.map g⟩ lb d q = some (d ++ [(lb.2, [(q.2, f lb.2 q.2)])]) := by
      simp only [putCell, List.getElem?_map, hlb, hl q (by simp), Option.map_some, Option.bind_eq_bind, Option.bind_some]
      rw [if_neg (by simpa using h), dictPut_new h, dictPut_lookup h, dictPut_last h]
      rfl
    rw [h1]
    change qs.foldlM _ _ = _
    rw [putCell_rest f g hlb h qs _ (fun x hx => hl x (by simp [hx])) hnd.2 (by
      intro x hx hmem
      have : x.2 = q.2 := by simpa using hmem
      exact hnd.1 (this ▸ List.mem_map_of_mem (f := Prod.snd) hx))]
    simp

theorem putLabel_all {L : List String} (f : String → String → Nat) (g : String → Nat) {labels : List (Nat × String)} (hne : labels ≠ [])
    (hl : ∀ lb ∈ labels, L[lb.1]? = some lb.2) (hnd : (labels.map Prod.snd).Nodup) :
    ∀ (ls : List (Nat × String)) (d : List (String × List (String × Nat)) × List (String × Nat)), (∀ lb ∈ ls, L[lb.1]? = some lb.2) →
      (ls.map Prod.snd).Nodup → (∀ lb ∈ ls, lb.2 ∉ d.1.map Prod.fst ∧ lb.2 ∉ d.2.map Prod.fst) →
      ls.foldlM (putLabel ⟨L.map (fun g => L.map (fun p => f g p)), L.map g⟩ labels) d
        = some (d.1 ++ ls.map (fun lb => (lb.2, labels.map (fun q => (q.2, f lb.2 q.2)))), d.2 ++ ls.map (fun lb => (lb.2, g lb.2))) := by
  intro ls
  induction ls with
  | nil => intro d _ _ _; simp
  | cons lb ls ih =>
    intro d hls hnd' hd
    rw [List.map_cons, List.nodup_cons] at hnd'
    have hlb := hls lb (by simp)
    obtain ⟨d1, d2⟩ := hd lb (by simp)
    rw [List.foldlM_cons]
    have h1 : putLabel ⟨L.map (fun g => L.map (fun p => f g p)), L.map g⟩ labels d lb
        = some (d.1 ++ [(lb.2, labels.map (fun q => (q.2, f lb.2 q.2)))], d.2 ++ [(lb.2, g lb.2)]) := by
      simp only [putLabel]
      rw [putCell_all f g hne hl hnd hlb d1]
      simp only [List.getElem?_map, hlb, Option.map_some, Option.bind_eq_bind, Option.bind_some]
      rw [dictPut_new d2]
    rw [h1]
    change ls.foldlM _ _ = _
    rw [ih _ (fun x hx => hls x (by simp [hx])) hnd'.2 (by
      intro x hx
      have hne' : x.2 ≠ lb.2 := fun e => hnd'.1 (e ▸ List.mem_map_of_mem (f := Prod.snd) hx)
      obtain ⟨e1, e2⟩ := hd x (by simp [hx])
      constructor
      · rw [List.map_append, List.mem_append]
        rintro (hm | hm)
        · exact e1 hm
        · exact hne' (by simpa using hm)
      · rw [List.map_append, List.mem_append]
        rintro (hm | hm)
        · exact e2 hm
        · exact hne' (by simpa using hm))]
    simp

theorem unpack_running {L : List String} (hndL : L.Nodup) (hne : L ≠ []) {labels : List (Nat × String)} (h1 : labels.length = L.length)
    (h2 : ∀ lb ∈ labels, L[lb.1]? = some lb.2) (h3 : (labels.map Prod.snd).Perm L) {frags : List (List Row)} {ts : List Rat} (hts : ts ≠ [])
    (hm : Bool) {Ms : List CM} (hMs : evalCM frags ts hm L.length = some Ms) {cs : List Classif}
    (hone : ∀ m, evalCM frags [m] hm L.length
      = some [⟨L.map (fun g => L.map (fun p => specCell cs m hm g p)), L.map (fun g => specMissed cs m hm g)⟩]) :
    ∃ R, unpackConfusionMatrix Ms labels ts hm = some R ∧ R.length = ts.length ∧
      ∀ (k : Nat) (t m : Rat), ts[k]? = some t → m ∈ ts.take (k + 1) → (∀ x ∈ ts.take (k + 1), x ≤ m) →
        R[k]? = some ⟨"ConfusionMatrix", .matrix
          (labels.map (fun g => (g.2, labels.map (fun p => (p.2, specCell cs m hm g.2 p.2)))))
          (labels.map (fun g => (g.2, specMissed cs m hm g.2))), some t, some hm, none⟩ := by
  have hnd : (labels.map Prod.snd).Nodup := h3.nodup_iff.2 hndL
  have hlne : labels ≠ [] := by
    intro e
    apply hne
    rw [← List.length_eq_zero_iff, ← h1]
    change labels.length = 0
    rw [e]
    rfl
  have hat : ∀ (k : Nat), k < ts.length → ∃ m, m ∈ ts.take (k + 1) ∧ ∀ x ∈ ts.take (k + 1), x ≤ m := by
    intro k hk
    have hne' : ts.take (k + 1) ≠ [] := by
      intro e
      rw [List.take_eq_nil_iff] at e
      rcases e with e | e
      · omega
      · exact hts e
    refine ⟨(ts.take (k + 1)).max hne', List.max_mem hne', fun x hx => List.le_max_of_mem hx⟩
  have hM : ∀ (k : Nat) (m : Rat), k < ts.length → m ∈ ts.take (k + 1) → (∀ x ∈ ts.take (k + 1), x ≤ m) →
      Ms[k]? = some ⟨L.map (fun g => L.map (fun p => specCell cs m hm g p)), L.map (fun g => specMissed cs m hm g)⟩ := by
    intro k m hk m1 m2
    obtain ⟨M, e1, e2⟩ := C18_cm_running_max frags ts hm L.length k Ms hMs m hk m1 m2
    rw [hone m] at e2
    rw [e1]
    exact (by simpa using e2.symm)
  choose! top ht1 ht2 using hat
  have hrep : unpackConfusionMatrix Ms labels ts hm = some (ts.zipIdx.map (fun x => ⟨"ConfusionMatrix", .matrix
          (labels.map (fun g => (g.2, labels.map (fun p => (p.2, specCell cs (top x.2) hm g.2 p.2)))))
          (labels.map (fun g => (g.2, specMissed cs (top x.2) hm g.2))), some x.1, some hm, none⟩)) := by
    unfold unpackConfusionMatrix
    apply mapM_option_eq
    intro x hx
    rw [List.mem_zipIdx_iff_getElem?] at hx
    have hk : x.2 < ts.length := (List.getElem?_eq_some_iff.1 hx).1
    rw [hM x.2 (top x.2) hk (ht1 _ hk) (ht2 _ hk)]
    simp only [Option.bind_eq_bind, Option.bind_some]
    rw [putLabel_all (fun g p => specCell cs (top x.2) hm g p) (fun g => specMissed cs (top x.2) hm g) hlne h2 hnd labels ([], []) h2 hnd
      (by intro lb _; simp)]
    simp [Metric.confusionMatrix]
  refine ⟨_, hrep, by simp, ?_⟩
  intro k t m hk m1 m2
  have hlt : k < ts.length := (List.getElem?_eq_some_iff.1 hk).1
  have : top k = m := le_antisymm (m2 _ (ht1 k hlt)) (ht2 k hlt m m1)
  rw [List.getElem?_map, List.getElem?_zipIdx, hk]
  simp [this]

/-- **C64 (confusion matrices).** For every history with a datum, every cut into tables and every non-empty list of thresholds the call
succeeds with one metric per threshold, in the given order. The `k`-th names its own threshold, but holds the numbers of the
largest of the first `k + 1` thresholds (C18): by the names of the labels, the number of datums with this ground truth for which
the label is predicted, and the number for which nothing is predicted. -/
theorem C64_confusion_matrix (calls : List (List Classif)) (hv : ∀ c ∈ calls.flatten, c.valid = true)
    (hne : (Loader.init.addAll calls).labels ≠ []) {frags : List (List Row)}
    (hf : FragmentsOf frags (Loader.init.addAll calls).rows.flatten) {ts : List Rat} (hts : ts ≠ []) (hm : Bool) :
    let cs := history calls
    let labels := evalLabels frags
    ∃ R, reportConfusionMatrix frags ts hm labels = some R ∧ R.length = ts.length ∧
      ∀ (k : Nat) (t m : Rat), ts[k]? = some t → m ∈ ts.take (k + 1) → (∀ x ∈ ts.take (k + 1), x ≤ m) →
        R[k]? = some ⟨"ConfusionMatrix", .matrix
          (labels.map (fun g => (g.2, labels.map (fun p => (p.2, specCell cs m hm g.2 p.2)))))
          (labels.map (fun g => (g.2, specMissed cs m hm g.2))), some t, some hm, none⟩ := by
  intro cs labels
  obtain ⟨h1, h2, h3⟩ := evalLabels_reach calls hv hf
  obtain ⟨Ms, hMs⟩ : ∃ Ms, evalCM frags ts hm (Loader.init.addAll calls).labels.length = some Ms :=
    ⟨_, evalCM_eq (inRange_reach calls) hf hts hm⟩
  obtain ⟨R, hR, hlen, hk⟩ := unpack_running (linv_reach calls).nodup hne h1 h2 h3 hts hm hMs (fun m => C19_matrix calls hv frags hf m hm)
  refine ⟨R, ?_, hlen, hk⟩
  unfold reportConfusionMatrix
  dsimp only
  rw [if_neg (by simpa using hts), show labels.length = _ from h1, hMs, Option.bind_some]
  exact hR

/-! ## ROC areas -/

/-- **C64 (ROC areas).** For every history, every cut into tables and every content of the curve cache the report has the area of each
label under its name, and one mean: the mean of the reported areas. -/
theorem C64_rocauc (calls : List (List Classif)) (hv : ∀ c ∈ calls.flatten, c.valid = true) {frags : List (List Row)}
    (hf : FragmentsOf frags (Loader.init.addAll calls).rows.flatten) (chunks : List (List RocRow)) :
    let labels := evalLabels frags
    ∃ (areas : List Rat) (mean : Rat),
      reportRocauc frags chunks labels = some (List.zipWith (fun a lb => ⟨"ROCAUC", .number a, none, none, some lb.2⟩) areas labels,
        [⟨"mROCAUC", .number mean, none, none, none⟩]) ∧
      areas = labels.map (fun lb => rocauc frags chunks ((Loader.init.addAll calls).labels.idxOf lb.2)) ∧
      mean = areas.sum / labels.length := by
  intro labels
  obtain ⟨h1, h2, _⟩ := evalLabels_reach calls hv hf
  obtain ⟨d1, _, d3⟩ := C50_classification calls hv frags hf.perm
  have hkeys : ((evalLabels frags).map Prod.fst).Perm (List.range (Loader.init.addAll calls).labels.length) := numbered_keys d1 d3
  set L := (Loader.init.addAll calls).labels with hLdef
  have hnd : L.Nodup := (linv_reach calls).nodup
  have hidx : ∀ lb ∈ labels, L.idxOf lb.2 = lb.1 := by
    intro lb hlb
    have e := h2 lb hlb
    obtain ⟨hlt, he⟩ := List.getElem?_eq_some_iff.1 e
    rw [← he]
    exact hnd.idxOf_getElem lb.1 hlt
  have hareas : labels.map (fun lb => rocauc frags chunks (L.idxOf lb.2)) = (labels.map Prod.fst).map (rocauc frags chunks) := by
    rw [List.map_map]
    apply List.map_congr_left
    intro lb hlb
    rw [hidx lb hlb]
    rfl
  refine ⟨_, _, ?_, rfl, rfl⟩
  unfold reportRocauc unpackRocauc
  rw [mapM_option_eq (g := fun lb => Metric.rocAuc (rocauc frags chunks (L.idxOf lb.2)) lb.2) (by
    intro lb hlb
    have hlt : lb.1 < labels.length := by
      have : labels.length = L.length := h1
      rw [this]
      exact (List.getElem?_eq_some_iff.1 (h2 lb hlb)).1
    rw [List.getElem?_map, List.getElem?_range hlt, hidx lb hlb]
    rfl)]
  simp only [Option.bind_eq_bind, Option.bind_some]
  congr 2
  · apply List.ext_getElem
    · simp
    · intro i g1 g2
      simp [Metric.rocAuc]
  · unfold Metric.meanRocAuc meanRocauc
    have hs : ((labels.map Prod.fst).map (rocauc frags chunks)).sum = ((List.range L.length).map (rocauc frags chunks)).sum :=
      (hkeys.map (rocauc frags chunks)).sum_eq
    rw [hareas, hs, show labels.length = L.length from h1]

/-- **C64 (no thresholds).** Without thresholds both calls raise. -/
theorem C64_empty (frags : List (List Row)) (hm : Bool) (labels : List (Nat × String)) :
    reportPrecisionRecall frags [] hm labels = none ∧ reportConfusionMatrix frags [] hm labels = none := ⟨rfl, rfl⟩

/-- The hypotheses hold for `sample`, with two tables and thresholds that are not sorted. -/
example : FragmentsOf [(Loader.init.addAll sample).rows.flatten] (Loader.init.addAll sample).rows.flatten :=
  ⟨by simp, by simp⟩
example : (∀ c ∈ sample.flatten, c.valid = true) ∧ (Loader.init.addAll sample).labels ≠ [] ∧
    evalLabels [(Loader.init.addAll sample).rows.flatten] = [(0, "cat"), (1, "dog"), (2, "bird")] := by decide +kernel
example : (reportPrecisionRecall [(Loader.init.addAll sample).rows.flatten] [1/2, 0] true [(0, "cat"), (1, "dog"), (2, "bird")]).map
    (fun R => (R.accuracy, R.counts.take 2)) =
    some ([⟨"Accuracy", .number (1/3), some (1/2), some true, none⟩, ⟨"Accuracy", .number (1/3), some 0, some true, none⟩],
      [⟨"Counts", .counts 1 1 0 0, some (1/2), some true, some "cat"⟩, ⟨"Counts", .counts 1 1 0 0, some 0, some true, some "cat"⟩]) := by
  decide +kernel
example : (reportConfusionMatrix [(Loader.init.addAll sample).rows.flatten] [0, 9/10] true [(0, "cat"), (1, "dog"), (2, "bird")]).map
    (fun R => R.map (fun m => m.value)) =
    some [.matrix [("cat", [("cat", 1), ("dog", 0), ("bird", 0)]), ("dog", [("cat", 1), ("dog", 0), ("bird", 1)]),
        ("bird", [("cat", 0), ("dog", 0), ("bird", 0)])] [("cat", 0), ("dog", 0), ("bird", 0)],
      .matrix [("cat", [("cat", 0), ("dog", 0), ("bird", 0)]), ("dog", [("cat", 1), ("dog", 0), ("bird", 0)]),
        ("bird", [("cat", 0), ("dog", 0), ("bird", 0)])] [("cat", 1), ("dog", 1), ("bird", 0)]] := by
  decide +kernel

end Verif.Classification
