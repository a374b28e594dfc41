import Verif.Detection.MonotoneProps
import Verif.Detection.ReportMetrics

/-! # C82: perfect detections -/

namespace Verif.Detection

open Verif.Shared (extractLabels)

/-- The predictions of a detection are its ground truths: prediction `p` has the label of ground truth `σ p` and overlaps it
completely, `σ` pairs all predictions with all ground truths, and no other ground truth of the label is at the same place. -/
structure PerfectDet (x : Det × (Nat → Nat → Rat)) (σ : Nat → Nat) : Prop where
  size : x.1.pds.length = x.1.gts.length
  pairing : ((List.range x.1.gts.length).map σ).Perm (List.range x.1.gts.length)
  hit : ∀ p a, x.1.pds[p]? = some a → ∃ b, x.1.gts[σ p]? = some b ∧ b.labels = a.labels ∧ x.2 p (σ p) = 1
  own : ∀ p a g b, x.1.pds[p]? = some a → x.1.gts[g]? = some b → b.labels = a.labels → g ≠ σ p → x.2 p g < 1

/-- All detections are perfect and all scores reach `s`. -/
def Perfect (H : History) (s : Rat) : Prop :=
  ∀ x ∈ H, (∃ σ, PerfectDet x σ) ∧ ∀ a ∈ x.1.pds, s ≤ a.scores.headD 0 ∧ EPSILON < a.scores.headD 0

theorem countP_index {α : Type} (q : α → Bool) (l : List α) :
    l.countP q = (List.range l.length).countP (fun i => (l[i]?).any q) := by
  induction l using List.reverseRecOn with
  | nil => rfl
  | append_singleton l x ih =>
    rw [List.countP_append, ih, List.length_append, List.length_singleton, List.range_succ, List.countP_append]
    congr 1
    · apply List.countP_congr
      intro i hi
      rw [List.getElem?_append_left (List.mem_range.1 hi)]
    · simp

/-- As many predictions as ground truths of each label. -/
theorem perfect_same {x : Det × (Nat → Nat → Rat)} {σ : Nat → Nat} (h : PerfectDet x σ) (v : String) :
    x.1.pds.countP (fun a => decide (a.labels.headD "" = v)) = x.1.gts.countP (fun a => decide (a.labels.headD "" = v)) := by
  rw [countP_index, countP_index _ x.1.gts, ← h.pairing.countP_eq, List.countP_map, h.size]
  apply List.countP_congr
  intro p hp
  have hlt : p < x.1.pds.length := by rw [h.size]; exact List.mem_range.1 hp
  obtain ⟨b, h1, h2, _⟩ := h.hit p _ (List.getElem?_eq_getElem hlt)
  rw [Function.comp_apply, h1, List.getElem?_eq_getElem hlt, Option.any_some, Option.any_some, h2]

theorem perfect_number {H : History} {s : Rat} (h : Perfect H s) (v : String) : pdNumber H s v = gtNumber H v := by
  unfold pdNumber gtNumber
  congr 1
  apply List.map_congr_left
  intro x hx
  obtain ⟨⟨σ, h1⟩, h2⟩ := h x hx
  rw [← List.countP_eq_length_filter, ← List.countP_eq_length_filter, ← perfect_same h1 v]
  apply List.countP_congr
  intro a ha
  rw [decide_eq_true_eq, decide_eq_true_eq]
  exact ⟨fun h => h.1, fun h => ⟨h, h2 a ha⟩⟩

theorem selected_mem {H : History} {keep : Nat → Bool} {x : Det × (Nat → Nat → Rat)} (h : x ∈ selected H keep) : x ∈ H := by
  unfold selected at h
  obtain ⟨⟨y, i⟩, hy, rfl⟩ := List.mem_map.1 h
  rw [List.mem_filter] at hy
  have := List.mem_zipIdx hy.1
  simp only at this ⊢
  rw [this.2.2]
  exact List.getElem_mem _

/-- **C82 (counts).** If the predictions are the ground truths: for all IoU thresholds in (0, 1] and score thresholds that all
scores reach, every label has its ground truths as true positives and no false positives. For every cache of the detections,
also after a datum filter. -/
theorem C82_counts_partial {calls : List History} {keep : Nat → Bool} {tables : List (List Row)} (h : Holding calls keep tables)
    (hH : HistoryOk calls.flatten) (h1 : OneLabel calls.flatten) (hS : SizesOk (Loader.init.addAll calls))
    {out : List RRow} (hout : RankedOf tables out) (chunks : List (List RRow)) (hch : chunks.flatten = out)
    {s : Rat} (hp : Perfect calls.flatten s) {t : Rat} (ht : 0 < t) (ht1 : t ≤ 1) (v : String) :
    tpTotal t s chunks ((Loader.init.addAll calls).labels.idxOf v : Nat) = gtNumber (selected calls.flatten keep) v ∧
    fpTotal t s chunks ((Loader.init.addAll calls).labels.idxOf v : Nat) = 0 ∧
    gtCount tables ((Loader.init.addAll calls).labels.idxOf v : Nat) = gtNumber (selected calls.flatten keep) v := by
  have htp : tpTotal t s chunks ((Loader.init.addAll calls).labels.idxOf v : Nat) = gtNumber (selected calls.flatten keep) v := by
    obtain ⟨best, hb, hall⟩ := C54_true_positives h hH h1 hS hout chunks hch
    obtain ⟨ids, hnd, hmem, hlen⟩ := hall t ht s v
    rw [hlen]
    unfold gtNumber
    rw [← idList_length calls.flatten keep Det.gts (gtOffset calls.flatten) (fun a => decide (a.labels.headD "" = v))]
    apply List.Perm.length_eq
    rw [List.perm_ext_iff_of_nodup hnd (idList_nodup _ _ _ _ _ (by
      intro k k' i i' x x' hk hk' hi hi' he
      exact (C34_ids calls.flatten hk hk').1 hi hi' he))]
    intro z
    rw [hmem, mem_idList]
    constructor
    · rintro ⟨k, x, p, a, g, hk, hx, ha, hv, _, _, hbp, _, rfl⟩
      obtain ⟨⟨b, hg, hlab⟩, _⟩ := (hb k x p a hk hx ha).1 g hbp
      exact ⟨k, x, g, b, hk, hx, hg, by rw [decide_eq_true_eq, hlab]; exact hv, rfl⟩
    · rintro ⟨k, x, g, b, hk, hx, hg, hv, rfl⟩
      rw [decide_eq_true_eq] at hv
      obtain ⟨⟨σ, hperf⟩, hsc⟩ := hp x (List.mem_of_getElem? hx)
      have hglt : g < x.1.gts.length := getElem?_lt hg
      obtain ⟨p, hpr, rfl⟩ := List.mem_map.1 (hperf.pairing.mem_iff.2 (List.mem_range.2 hglt))
      have hplt : p < x.1.pds.length := by rw [hperf.size]; exact List.mem_range.1 hpr
      obtain ⟨a, ha⟩ : ∃ a, x.1.pds[p]? = some a := ⟨_, List.getElem?_eq_getElem hplt⟩
      obtain ⟨b', hb1, hb2, hb3⟩ := hperf.hit p a ha
      have hbb : b' = b := Option.some.inj (hb1.symm.trans hg)
      subst hbb
      have hs := hsc a (List.mem_of_getElem? ha)
      have hbest : best k p = some (σ p) := by
        cases hbp : best k p with
        | none =>
          have := (hb k x p a hk hx ha).2 hbp (σ p) b' hg hb2
          rw [hb3] at this
          exact absurd this (by unfold EPSILON; norm_num)
        | some g' =>
          obtain ⟨⟨b, hg', hlab⟩, _, hmax⟩ := (hb k x p a hk hx ha).1 g' hbp
          have := hmax (σ p) b' hg hb2
          rw [hb3] at this
          by_contra hne
          have hne' : g' ≠ σ p := fun e => hne (by rw [e])
          exact absurd (hperf.own p a g' b ha hg' hlab hne') (not_lt.2 this)
      exact ⟨k, x, p, a, σ p, hk, hx, ha, by rw [← hb2]; exact hv, hs.1, hs.2, hbest, by rw [hb3]; exact ht1, rfl⟩
  have hpd := C54_predictions h hH h1 hS hout chunks hch t s v
  have hsel : Perfect (selected calls.flatten keep) s := fun x hx => hp x (selected_mem hx)
  rw [perfect_number hsel v] at hpd
  exact ⟨htp, by omega, C54_groundtruths h hH hS.labels v⟩

theorem label_annotated {calls : List History} (hv : ∀ x ∈ calls.flatten, DetOk x.1) (hH : HistoryOk calls.flatten)
    (h1 : OneLabel calls.flatten) {v : String} (h : v ∈ (Loader.init.addAll calls).labels) :
    ∃ x ∈ calls.flatten, (∃ a ∈ x.1.gts, a.labels.headD "" = v) ∨ ∃ a ∈ x.1.pds, a.labels.headD "" = v := by
  obtain ⟨x, hx, hst⟩ := labels_used calls v h
  refine ⟨x, hx, ?_⟩
  have hpd : ∀ {p : Nat} {a : Ann} {l : String} {sc : Rat}, x.1.pds[p]? = some a → (l, sc) ∈ a.labels.zip a.scores →
      ∃ a ∈ x.1.pds, a.labels.headD "" = l := fun {p a l sc} ha hz =>
    ⟨a, List.mem_of_getElem? ha, (zip_head (h1 x hx a (List.mem_of_getElem? ha)) hz).1.symm⟩
  obtain ⟨r, hr, hl⟩ := step_label_row hst (hv x hx) (Loader.init.addAll calls).labels 0 0 0
  rcases hr with ⟨g, a, hg, _, rfl⟩ | ⟨p, a, l, sc, ha, hz, _, rfl⟩ | ⟨g, ga, p, pa, gl, l, sc, hg, ha, _, hgl, hz, rfl⟩
  · rcases hl with hl | hl
    · exact Or.inl ⟨a, List.mem_of_getElem? hg, Option.some.inj hl⟩
    · exact absurd hl (by simp [gtRow])
  · rcases hl with hl | hl
    · exact absurd hl (by simp [pdRow])
    · have : l = v := Option.some.inj hl
      subst this
      exact Or.inr (hpd ha hz)
  · rcases hl with hl | hl
    · have : gl = v := Option.some.inj hl
      subst this
      obtain ⟨w, hw⟩ := List.length_eq_one_iff.1 (hH.gtLabel x hx ga (List.mem_of_getElem? hg))
      rw [hw] at hgl
      refine Or.inl ⟨ga, List.mem_of_getElem? hg, ?_⟩
      rw [hw]
      exact (List.mem_singleton.1 hgl).symm
    · have : l = v := Option.some.inj hl
      subst this
      exact Or.inr (hpd ha hz)

/-- With perfect predictions every label has a ground truth. -/
theorem perfect_pos {calls : List History} (hv : ∀ x ∈ calls.flatten, DetOk x.1) (hH : HistoryOk calls.flatten)
    (h1 : OneLabel calls.flatten) {s : Rat} (hp : Perfect calls.flatten s) {v : String} (h : v ∈ (Loader.init.addAll calls).labels) :
    0 < gtNumber calls.flatten v := by
  obtain ⟨x, hx, hx'⟩ := label_annotated hv hH h1 h
  have : 0 < x.1.gts.countP (fun a => decide (a.labels.headD "" = v)) := by
    rcases hx' with ⟨a, ha, he⟩ | ⟨a, ha, he⟩
    · exact List.countP_pos_iff.2 ⟨a, ha, by simpa using he⟩
    · obtain ⟨⟨σ, hσ⟩, _⟩ := hp x hx
      rw [← perfect_same hσ]
      exact List.countP_pos_iff.2 ⟨a, ha, by simpa using he⟩
  unfold gtNumber
  rw [List.countP_eq_length_filter] at this
  exact lt_of_lt_of_le this (List.single_le_sum (by simp) _ (List.mem_map.2 ⟨x, hx, rfl⟩))

theorem mean_one {l : List Rat} (hne : l ≠ []) (h : ∀ x ∈ l, x = 1) : mean l = 1 := by
  have : l = List.replicate l.length 1 := List.eq_replicate_iff.2 ⟨rfl, h⟩
  have hl : (l.length : Rat) ≠ 0 := by simpa using hne
  unfold mean
  rw [this, List.length_replicate, List.sum_replicate, nsmul_eq_mul, mul_one]
  exact div_self hl

theorem decisions_length_eq (t : Rat) (l : Int) (before rows : List RRow) :
    (decisions t l before rows).length = (rows.filter (fun r => decide (r.row.pl = l))).length := by
  induction rows generalizing before with
  | nil => rfl
  | cons r rows ih =>
    rw [decisions]
    by_cases h : r.row.pl = l
    · rw [if_pos h, List.length_cons, ih, List.filter_cons_of_pos (by simpa using h), List.length_cons]
    · rw [if_neg h, ih, List.filter_cons_of_neg (by simpa using h)]

/-- Every ranked row has the score of a prediction. -/
theorem ranked_score {calls : List History} {keep : Nat → Bool} {tables : List (List Row)} (h : Holding calls keep tables)
    (hH : HistoryOk calls.flatten) (h1 : OneLabel calls.flatten) (hS : SizesOk (Loader.init.addAll calls))
    {out : List RRow} (hout : RankedOf tables out) {r : RRow} (hr : r ∈ out) :
    ∃ x ∈ calls.flatten, ∃ a ∈ x.1.pds, r.row.score = a.scores.headD 0 := by
  obtain ⟨m1, m2, _⟩ := ranked_pd (cacheOk_of_holding h hH hS.labels) hout hr
  obtain ⟨k, x, f, _, hx, hf, he⟩ := (h.rows r.row).1 m1
  have hxm := List.mem_of_getElem? hx
  rw [← he] at m2 ⊢
  rcases hf with ⟨g, a, hg, _, rfl⟩ | ⟨p, a, l, sc, ha, hz, _, rfl⟩ | ⟨g, ga, p, pa, gl, l, sc, hg, ha, _, hgl, hz, rfl⟩
  · exact absurd m2 (by simp [gtRow])
  · have ham := List.mem_of_getElem? ha
    exact ⟨x, hxm, a, ham, (zip_head (h1 x hxm a ham) hz).2⟩
  · have ham := List.mem_of_getElem? ha
    exact ⟨x, hxm, pa, ham, (zip_head (h1 x hxm pa ham) hz).2⟩

/-- The curve of a label with `n` ground truths and `n` decisions that are all correct. -/
theorem interpolated_one {n : Nat} (hn : 0 < n) {ds : List Bool} (hlen : ds.length = n) (hcount : ds.count true = n) {j : Nat} (hj : j ≤ 100)
    {v : Rat} (h : Interpolated n ds j v) : v = 1 := by
  have hn' : (n : Rat) ≠ 0 := by exact_mod_cast hn.ne'
  have hh : hits ds n = n := by
    unfold hits
    rw [List.take_of_length_le (by omega), hcount]
  have hp : precisionAt ds n = 1 := by
    unfold precisionAt
    rw [hh, div_self hn']
  have hr : Reaches n ds j n := by
    refine ⟨hn, by omega, ?_⟩
    rw [hh, div_self hn']
    rw [div_le_one (by norm_num)]
    exact_mod_cast hj
  have h1 := h.1 n hr
  rw [hp] at h1
  rcases h.2 with ⟨_, h2⟩ | ⟨k, _, h2⟩
  · exact absurd hr (h2 n)
  · have := (precisionAt_range ds k).2
    rw [← h2] at this
    exact le_antisymm this h1

/-- **C82 (average precision).** If the predictions are the ground truths and the label has one: the whole precision-recall
curve is 1 and the average precision is 1, for all IoU thresholds in (0, 1]. -/
theorem C82_average_precision_partial {calls : List History} {keep : Nat → Bool} {tables : List (List Row)} (h : Holding calls keep tables)
    (hH : HistoryOk calls.flatten) (h1 : OneLabel calls.flatten) (hS : SizesOk (Loader.init.addAll calls))
    {out : List RRow} (hout : RankedOf tables out) (chunks : List (List RRow)) (hch : chunks.flatten = out)
    {s : Rat} (hp : Perfect calls.flatten s) {t : Rat} (ht : 0 < t) (ht1 : t ≤ 1) {v : String}
    (hpos : 0 < gtNumber (selected calls.flatten keep) v) :
    (∀ y ∈ interpolated (curveOf t (gtCount tables ((Loader.init.addAll calls).labels.idxOf v : Nat))
      ((Loader.init.addAll calls).labels.idxOf v : Nat) chunks).prec, y = 1) ∧
    averagePrecision (curveOf t (gtCount tables ((Loader.init.addAll calls).labels.idxOf v : Nat))
      ((Loader.init.addAll calls).labels.idxOf v : Nat) chunks).prec = 1 := by
  have hc := cacheOk_of_holding h hH hS.labels
  have hp' : Perfect calls.flatten EPSILON := fun x hx => ⟨(hp x hx).1, fun a ha => ⟨((hp x hx).2 a ha).2.le, ((hp x hx).2 a ha).2⟩⟩
  obtain ⟨c1, c2, c3⟩ := C82_counts_partial h hH h1 hS hout chunks hch hp' ht ht1 v
  generalize ((Loader.init.addAll calls).labels.idxOf v : Int) = l at *
  have hcount : (decisions t l [] out).count true = gtCount tables l := by
    rw [decisions_count t l out (ranked_scores hout), c3, ← c1, C28_tp hc hout ht EPSILON l chunks hch]
    congr 3
    apply List.filter_congr
    intro r _
    rw [decide_eq_decide]
    unfold Active
    constructor
    · rintro ⟨a, b, c⟩; exact ⟨⟨a, b.le, b⟩, c⟩
    · rintro ⟨⟨a, _, b⟩, c⟩; exact ⟨a, b, c⟩
  have hlen : (decisions t l [] out).length = gtCount tables l := by
    have := C28_tp_fp t EPSILON l chunks
    rw [c1, c2, Nat.add_zero, ← c3, hch] at this
    rw [decisions_length_eq, this]
    congr 1
    apply List.filter_congr
    intro r hr
    rw [decide_eq_decide]
    obtain ⟨x, hx, a, ha, he⟩ := ranked_score h hH h1 hS hout hr
    have := ((hp x hx).2 a ha).2
    unfold Active
    rw [he]
    exact ⟨fun e => ⟨e, this.le, this⟩, fun e => e.1⟩
  obtain ⟨a1, a2, a3, _⟩ := C29_cache hc hout ht l chunks hch
  rw [a3]
  have hn : 0 < gtCount tables l := by rw [c3]; exact hpos
  generalize interpolated (curveOf t (gtCount tables l) l chunks).prec = ys at a1 a2
  have hone : ∀ y ∈ ys, y = 1 := by
    intro y hy
    obtain ⟨j, hj, rfl⟩ := List.getElem_of_mem hy
    exact interpolated_one hn hlen hcount (by omega) (a2 j hj)
  refine ⟨hone, ?_⟩
  have : ys = List.replicate 101 1 := List.eq_replicate_iff.2 ⟨a1, hone⟩
  rw [this, List.sum_replicate]
  norm_num

/-- **C82 (report).** If the predictions are the ground truths: every precision, recall, F1, AP and AR value, every aggregate
and every point of every precision-recall curve of the report is 1. For every sequence of `add_*` calls, every division of the
rows into tables, all IoU thresholds in (0, 1] and all score thresholds that the scores reach. -/
theorem C82_report_partial (calls : List History) (hH : HistoryOk calls.flatten) (h1 : OneLabel calls.flatten)
    (hS : SizesOk (Loader.init.addAll calls)) (hne : (Loader.init.addAll calls).labels ≠ [])
    {ftables : List (List FRow)} (hst : Stored (Loader.init.addAll calls).rows ftables)
    {out : List RRow} (h : RankedOf (rowsIn ftables) out) {chunks : List (List RRow)} (hch : chunks.flatten = out)
    {order : List Rat → List Nat} (ho : IsArgsort order) {ious scores : List Rat} (hi : ious ≠ []) (hs : scores ≠ [])
    (hi1 : ∀ t ∈ ious, 0 < t ∧ t ≤ 1) (hp : ∀ s ∈ scores, Perfect calls.flatten s) :
    ∃ R, computePrecisionRecall order ((extractLabels (ftables.map (fun t => t.map labelCols))).map (fun x => (x.1.toNat, x.2)))
        (rowsIn ftables) chunks ious scores = .ok R ∧ ∀ m ∈ R.all, ∀ v ∈ m.rates, v = some 1 := by
  have hv : ∀ x ∈ calls.flatten, DetOk x.1 := fun x hx =>
    ⟨fun a ha he => by have := hH.gtLabel x hx a ha; rw [he] at this; exact absurd this (by decide), hH.pdLabel x hx⟩
  obtain ⟨e1, e2⟩ := C60_end_to_end calls hv hH hS hne hst h hch ho hi hs
  have hhold := holding_of_stored hst
  obtain ⟨s0, hs0⟩ := List.exists_mem_of_ne_nil _ hs
  have hlne : ((extractLabels (ftables.map (fun t => t.map labelCols))).map (fun x => (x.1.toNat, x.2))) ≠ [] := by
    obtain ⟨v, hv⟩ := List.exists_mem_of_ne_nil _ hne
    obtain ⟨i, hi, rfl⟩ := List.getElem_of_mem hv
    exact List.ne_nil_of_mem ((e1 (i, _)).2 (List.getElem?_eq_getElem hi))
  refine ⟨_, e2, ?_⟩
  generalize ((extractLabels (ftables.map (fun t => t.map labelCols))).map (fun x => (x.1.toNat, x.2))) = labels at e1 hlne
  have hname : ∀ lb ∈ labels, (lb.1 : Int) = ((Loader.init.addAll calls).labels.idxOf lb.2 : Nat) ∧ 0 < gtNumber calls.flatten lb.2 := by
    intro lb hlb
    have hg := (e1 lb).1 hlb
    have hlt := getElem?_lt hg
    rw [List.getElem?_eq_getElem hlt, Option.some.injEq] at hg
    constructor
    · rw [← hg, (C34_rows calls).1.idxOf_getElem]
    · exact perfect_pos hv hH h1 (hp s0 hs0) (by rw [← hg]; exact List.getElem_mem _)
  have hcounts : ∀ lb ∈ labels, ∀ t ∈ ious, ∀ s ∈ scores, ∃ n : Nat, 0 < n ∧ tpTotal t s chunks (lb.1 : Int) = n ∧
      fpTotal t s chunks (lb.1 : Int) = 0 ∧ gtCount (rowsIn ftables) (lb.1 : Int) = n := by
    intro lb hlb t ht s hsm
    obtain ⟨n1, n2⟩ := hname lb hlb
    obtain ⟨a, b, c⟩ := C82_counts_partial hhold hH h1 hS h chunks hch (hp s hsm) (hi1 t ht).1 (hi1 t ht).2 lb.2
    rw [n1]
    rw [selected_all] at a c
    exact ⟨_, n2, a, b, c⟩
  have rpr : ∀ lb ∈ labels, ∀ t ∈ ious, ∀ s ∈ scores, precisionOf chunks t s (lb.1 : Int) = 1 := by
    intro lb hlb t ht s hsm
    obtain ⟨n, hn, a, b, _⟩ := hcounts lb hlb t ht s hsm
    have hn' : (n : Rat) ≠ 0 := by exact_mod_cast hn.ne'
    unfold precisionOf precision
    rw [a, b, Nat.add_zero, if_pos hn, div_self hn']
  have rrc : ∀ lb ∈ labels, ∀ t ∈ ious, ∀ s ∈ scores, recallAt (rowsIn ftables) chunks t s (lb.1 : Int) = 1 := by
    intro lb hlb t ht s hsm
    obtain ⟨n, hn, a, _, c⟩ := hcounts lb hlb t ht s hsm
    have hn' : (n : Rat) ≠ 0 := by exact_mod_cast hn.ne'
    unfold recallAt recall
    rw [a, c, if_pos hn, div_self hn']
  have rcv : ∀ lb ∈ labels, ∀ t ∈ ious, (∀ y ∈ interpolated (curveOf t (gtCount (rowsIn ftables) (lb.1 : Int)) (lb.1 : Int) chunks).prec, y = 1) ∧
      apAt (rowsIn ftables) chunks t (lb.1 : Int) = 1 := by
    intro lb hlb t ht
    obtain ⟨n1, n2⟩ := hname lb hlb
    unfold apAt
    rw [n1]
    exact C82_average_precision_partial hhold hH h1 hS h chunks hch (hp s0 hs0) (hi1 t ht).1 (hi1 t ht).2 (by rw [selected_all]; exact n2)
  have f11 : f1 1 1 = 1 := by unfold f1 EPSILON; norm_num
  have mlab : ∀ f : Int → Rat, (∀ lb ∈ labels, f (lb.1 : Int) = 1) → mean ((labels.map (fun lb => (lb.1 : Int))).map f) = 1 := by
    intro f hf
    apply mean_one (by simpa using hlne)
    intro x hx
    rw [List.map_map] at hx
    obtain ⟨lb, hlb, rfl⟩ := List.mem_map.1 hx
    exact hf lb hlb
  have mrat : ∀ (l : List Rat) (f : Rat → Rat), l ≠ [] → (∀ t ∈ l, f t = 1) → mean (l.map f) = 1 := by
    intro l f hl hf
    apply mean_one (by simpa using hl)
    intro x hx
    obtain ⟨t, ht, rfl⟩ := List.mem_map.1 hx
    exact hf t ht
  intro m hm
  simp only [Report.all, List.mem_append] at hm
  unfold expectedReport at hm
  simp only [List.mem_flatMap, List.mem_map, List.mem_singleton] at hm
  rcases hm with (((((((((((⟨t, ht, lb, hlb, rfl⟩ | ⟨t, ht, rfl⟩) | ⟨lb, hlb, rfl⟩) | rfl) | ⟨s, hsm, lb, hlb, rfl⟩) | ⟨s, hsm, rfl⟩) | ⟨lb, hlb, rfl⟩)
    | rfl) | ⟨t, ht, lb, hlb, rfl⟩) | ⟨lb, hlb, s, hsm, t, ht, rfl⟩) | ⟨lb, hlb, s, hsm, t, ht, rfl⟩) | ⟨lb, hlb, s, hsm, t, ht, rfl⟩) | ⟨lb, hlb, s, hsm, t, ht, rfl⟩
  all_goals
    intro v hv
    simp only [DMetric.rates, List.mem_singleton, List.not_mem_nil] at hv
  · rw [hv, (rcv lb hlb t ht).2]
  · rw [hv, mlab _ (fun lb hlb => (rcv lb hlb t ht).2)]
  · rw [hv, mrat _ _ hi (fun t ht => (rcv lb hlb t ht).2)]
  · rw [hv, mrat _ _ hi (fun t ht => mlab _ (fun lb hlb => (rcv lb hlb t ht).2))]
  · rw [hv, mrat _ _ hi (fun t ht => rrc lb hlb t ht s hsm)]
  · rw [hv, mlab _ (fun lb hlb => mrat _ _ hi (fun t ht => rrc lb hlb t ht s hsm))]
  · rw [hv, mrat _ _ hs (fun s hsm => mrat _ _ hi (fun t ht => rrc lb hlb t ht s hsm))]
  · rw [hv, mrat _ _ hs (fun s hsm => mlab _ (fun lb hlb => mrat _ _ hi (fun t ht => rrc lb hlb t ht s hsm)))]
  · obtain ⟨y, hy, rfl⟩ := List.mem_map.1 hv
    rw [(rcv lb hlb t ht).1 y hy]
  · rw [hv, rpr lb hlb t ht s hsm]
  · rw [hv, rrc lb hlb t ht s hsm]
  · rw [hv, rpr lb hlb t ht s hsm, rrc lb hlb t ht s hsm, f11]

/-! ## Boxes and bitmasks -/

/-- **C82 (boxes).** Boxes with an area of at least 1e-9: it is enough that the predicted boxes are the ground truth boxes, in
any order, with their labels, and that ground truths of the same label have different boxes. -/
theorem C82_boxes {d : Det} {gb pb : Nat → Box} {σ : Nat → Nat} (hsize : d.pds.length = d.gts.length)
    (hσ : ((List.range d.gts.length).map σ).Perm (List.range d.gts.length))
    (hproper : ∀ g, g < d.gts.length → (gb g).Proper ∧ EPSILON ≤ ((gb g).xmax - (gb g).xmin) * ((gb g).ymax - (gb g).ymin))
    (hsame : ∀ p, p < d.gts.length → pb p = gb (σ p) ∧ (d.pds[p]?).map Ann.labels = (d.gts[σ p]?).map Ann.labels)
    (hdiff : ∀ g g' b b', d.gts[g]? = some b → d.gts[g']? = some b' → b.labels = b'.labels → g ≠ g' → gb g ≠ gb g') :
    PerfectDet (d, fun p g => bboxIou (pb p) (gb g)) σ := by
  have hin : ∀ p, p < d.gts.length → σ p < d.gts.length := fun p hp =>
    List.mem_range.1 (hσ.mem_iff.1 (List.mem_map_of_mem (List.mem_range.2 hp)))
  have hlab : ∀ p a, d.pds[p]? = some a → p < d.gts.length ∧ ∃ b, d.gts[σ p]? = some b ∧ b.labels = a.labels := by
    intro p a ha
    have hp : p < d.gts.length := by rw [← hsize]; exact getElem?_lt ha
    have h1 := (hsame p hp).2
    rw [ha, List.getElem?_eq_getElem (hin p hp), Option.map_some, Option.map_some, Option.some.injEq] at h1
    exact ⟨hp, _, List.getElem?_eq_getElem (hin p hp), h1.symm⟩
  refine ⟨hsize, hσ, ?_, ?_⟩
  · intro p a ha
    obtain ⟨hp, b, hb, he⟩ := hlab p a ha
    refine ⟨b, hb, he, ?_⟩
    obtain ⟨h1, h2⟩ := hproper (σ p) (hin p hp)
    dsimp only
    rw [(hsame p hp).1]
    exact (C24_one h1 h1 h2 h2).2 rfl
  · intro p a g b ha hb he hne
    obtain ⟨hp, b', hb', he'⟩ := hlab p a ha
    obtain ⟨h1, h2⟩ := hproper (σ p) (hin p hp)
    obtain ⟨h3, h4⟩ := hproper g (getElem?_lt hb)
    dsimp only
    rw [(hsame p hp).1]
    refine lt_of_le_of_ne (C24_range _ _).2 ?_
    rw [Ne, C24_one h1 h3 h2 h4]
    exact hdiff (σ p) g b' b hb' hb (he'.trans he.symm) (Ne.symm hne)

/-- **C82 (bitmasks).** The same for bitmasks of one size that are not empty. -/
theorem C82_bitmasks {d : Det} {gb pb : Nat → List Bool} {σ : Nat → Nat} {size : Nat} (hsize : d.pds.length = d.gts.length)
    (hσ : ((List.range d.gts.length).map σ).Perm (List.range d.gts.length))
    (hproper : ∀ g, g < d.gts.length → (gb g).length = size ∧ (pixels (gb g)).Nonempty)
    (hsame : ∀ p, p < d.gts.length → pb p = gb (σ p) ∧ (d.pds[p]?).map Ann.labels = (d.gts[σ p]?).map Ann.labels)
    (hdiff : ∀ g g' b b', d.gts[g]? = some b → d.gts[g']? = some b' → b.labels = b'.labels → g ≠ g' → gb g ≠ gb g') :
    PerfectDet (d, fun p g => bitmaskIou (pb p) (gb g)) σ := by
  have hin : ∀ p, p < d.gts.length → σ p < d.gts.length := fun p hp =>
    List.mem_range.1 (hσ.mem_iff.1 (List.mem_map_of_mem (List.mem_range.2 hp)))
  have hlab : ∀ p a, d.pds[p]? = some a → p < d.gts.length ∧ ∃ b, d.gts[σ p]? = some b ∧ b.labels = a.labels := by
    intro p a ha
    have hp : p < d.gts.length := by rw [← hsize]; exact getElem?_lt ha
    have h1 := (hsame p hp).2
    rw [ha, List.getElem?_eq_getElem (hin p hp), Option.map_some, Option.map_some, Option.some.injEq] at h1
    exact ⟨hp, _, List.getElem?_eq_getElem (hin p hp), h1.symm⟩
  refine ⟨hsize, hσ, ?_, ?_⟩
  · intro p a ha
    obtain ⟨hp, b, hb, he⟩ := hlab p a ha
    refine ⟨b, hb, he, ?_⟩
    dsimp only
    rw [(hsame p hp).1]
    exact (C25_one rfl (by rw [Finset.union_self]; exact (hproper (σ p) (hin p hp)).2)).2 rfl
  · intro p a g b ha hb he hne
    obtain ⟨hp, b', hb', he'⟩ := hlab p a ha
    obtain ⟨h1, h2⟩ := hproper (σ p) (hin p hp)
    obtain ⟨h3, h4⟩ := hproper g (getElem?_lt hb)
    dsimp only
    rw [(hsame p hp).1]
    refine lt_of_le_of_ne (C25_range (h1.trans h3.symm)).2 ?_
    rw [Ne, C25_one (h1.trans h3.symm) (h2.mono Finset.subset_union_left)]
    exact hdiff (σ p) g b' b hb' hb (he'.trans he.symm) (Ne.symm hne)

/-! ## Instances -/

/-- An image with two different boxes of label `a` and one of label `b`, predicted in another order. -/
def perfectDet : Det :=
  ⟨"d", [⟨"g0", ["a"], [], ""⟩, ⟨"g1", ["a"], [], ""⟩, ⟨"g2", ["b"], [], ""⟩],
    [⟨"p0", ["a"], [9 / 10], ""⟩, ⟨"p1", ["b"], [8 / 10], ""⟩, ⟨"p2", ["a"], [7 / 10], ""⟩], ""⟩

/-- Its boxes. The second and the third are at the same place. -/
def perfectBoxes (g : Nat) : Box := if g = 0 then ⟨0, 2, 0, 2⟩ else ⟨1, 3, 0, 2⟩

/-- The ground truth of each prediction. -/
def perfectOrder (p : Nat) : Nat := if p = 0 then 1 else if p = 1 then 2 else 0

theorem perfect_sample : PerfectDet (perfectDet, fun p g => bboxIou (perfectBoxes (perfectOrder p)) (perfectBoxes g)) perfectOrder := by
  apply C82_boxes
  · decide
  · decide +kernel
  · intro g _
    unfold perfectBoxes
    split
    · exact ⟨by unfold Box.Proper; norm_num, by unfold EPSILON; norm_num⟩
    · exact ⟨by unfold Box.Proper; norm_num, by unfold EPSILON; norm_num⟩
  · intro p hp
    refine ⟨rfl, ?_⟩
    have : p = 0 ∨ p = 1 ∨ p = 2 := by
      have : p < 3 := hp
      omega
    rcases this with rfl | rfl | rfl <;> rfl
  · intro g g' b b' hb hb' he hne
    have h1 : g < 3 := getElem?_lt hb
    have h2 : g' < 3 := getElem?_lt hb'
    have : (g = 0 ∨ g = 1 ∨ g = 2) ∧ (g' = 0 ∨ g' = 1 ∨ g' = 2) := by omega
    obtain ⟨rfl | rfl | rfl, rfl | rfl | rfl⟩ := this
    all_goals first
      | exact absurd rfl hne
      | decide
      | (simp only [perfectDet, List.getElem?_cons_zero, List.getElem?_cons_succ, Option.some.injEq] at hb hb'
         subst hb; subst hb'; exact absurd he (by decide))

/-- The hypotheses of the theorems above hold for this image. -/
example : let calls : List History := [[(perfectDet, fun p g => bboxIou (perfectBoxes (perfectOrder p)) (perfectBoxes g))]]
    HistoryOk calls.flatten ∧ OneLabel calls.flatten ∧ (∀ s ∈ [(0 : Rat), 1 / 2], Perfect calls.flatten s) ∧
    gtNumber calls.flatten "a" = 2 := by
  intro calls
  refine ⟨⟨?_, ?_, ?_⟩, ?_, ?_, by decide +kernel⟩
  · simp [calls, perfectDet]
  · simp [calls, perfectDet]
  · simp only [calls, List.flatten_cons, List.flatten_nil, List.append_nil, List.mem_singleton, forall_eq]
    exact fun p g => C24_range _ _
  · unfold OneLabel
    simp [calls, perfectDet]
  · intro s hs x hx
    simp only [calls, List.flatten_cons, List.flatten_nil, List.append_nil, List.mem_singleton] at hx
    subst hx
    refine ⟨⟨_, perfect_sample⟩, ?_⟩
    simp only [List.mem_cons, List.not_mem_nil, or_false] at hs
    rcases hs with rfl | rfl
    · decide +kernel
    · decide +kernel

/-! ## Two ground truths at the same place -/

/-- Two ground truths with the same label and the same box, predicted twice. -/
def twins : List History :=
  [[(⟨"d", [⟨"g0", ["a"], [], ""⟩, ⟨"g1", ["a"], [], ""⟩], [⟨"p0", ["a"], [9 / 10], ""⟩, ⟨"p1", ["a"], [9 / 10], ""⟩], ""⟩,
    fun _ _ => bboxIou ⟨0, 2, 0, 2⟩ ⟨0, 2, 0, 2⟩)]]

/-- The cache of `twins` in memory. -/
def twinRows : List FRow := (Loader.init.addAll twins).rows.flatten

theorem twin_ranked : rankTable (twinRows.map FRow.row) = [⟨⟨0, 0, 0, 0, 0, 1, 9 / 10⟩, 0⟩, ⟨⟨0, 0, 1, 0, 0, 1, 9 / 10⟩, 2⟩] := by
  have h : Verif.Cache.sortBy rankKey (twinRows.map FRow.row)
      = [⟨0, 0, 0, 0, 0, 1, 9 / 10⟩, ⟨0, 0, 1, 0, 0, 1, 9 / 10⟩, ⟨0, 1, 0, 0, 0, 1, 9 / 10⟩, ⟨0, 1, 1, 0, 0, 1, 9 / 10⟩] := by
    have h0 : twinRows.map FRow.row
        = [⟨0, 0, 0, 0, 0, 1, 9 / 10⟩, ⟨0, 0, 1, 0, 0, 1, 9 / 10⟩, ⟨0, 1, 0, 0, 0, 1, 9 / 10⟩, ⟨0, 1, 1, 0, 0, 1, 9 / 10⟩] := by
      decide +kernel
    rw [h0]
    unfold Verif.Cache.sortBy
    apply List.mergeSort_of_pairwise
    decide +kernel
  unfold rankTable
  rw [h]
  decide +kernel

/-- **C82, violated.** The predictions are the ground truths, box for box and label for label; but both predictions are ranked
with the first ground truth, so one ground truth is missed and one prediction is a false positive: precision and recall 1/2. -/
theorem C82_twins_violation : Stored (Loader.init.addAll twins).rows [twinRows] ∧
    RankedOf (rowsIn [twinRows]) (rankTable (twinRows.map FRow.row)) ∧
    tpTotal (1 / 2) (1 / 2) [rankTable (twinRows.map FRow.row)] 0 = 1 ∧ fpTotal (1 / 2) (1 / 2) [rankTable (twinRows.map FRow.row)] 0 = 1 ∧
    gtCount (rowsIn [twinRows]) 0 = 2 := by
  refine ⟨⟨[(Loader.init.addAll twins).rows], by decide +kernel, List.Forall₂.cons (List.Perm.refl _) List.Forall₂.nil⟩,
    rankedOf_mem _, ?_, ?_, ?_⟩
  · rw [twin_ranked]; decide +kernel
  · rw [twin_ranked]; decide +kernel
  · decide +kernel

end Verif.Detection
