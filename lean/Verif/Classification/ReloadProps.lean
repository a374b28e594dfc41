import Verif.Classification.RefusedProps
import Verif.Classification.DatumReportProps

/-!
# C107: a filtered evaluation that is loaded again (`classification/evaluator.py` 352-402, 404-497)

`filter` hands the labels of its source to the evaluator it returns (497); `load` without `index_to_label_override` reads the labels from
the filtered rows.
-/

namespace Verif.Classification

open Verif.Shared

/-- Some row in the tables has the label. -/
def HasLabel (tables : List (List Row)) (v : String) : Prop := ∃ r ∈ tables.flatten, r.gtLabel = v ∨ r.pdLabel = v

/-- No label that is missing in the tables has an id below a label that is there. -/
def NoGap (L : List String) (tables : List (List Row)) : Prop :=
  ∀ o ∈ L, ∀ v ∈ L, L.idxOf o < L.idxOf v → HasLabel tables v → HasLabel tables o

/-- Then the labels that are there are the first ones. -/
theorem noGap_prefix {L : List String} {tables : List (List Row)} (hnd : L.Nodup) (h : NoGap L tables) :
    ∃ n ≤ L.length, ∀ (i : Nat) (v : String), L[i]? = some v → (HasLabel tables v ↔ i < n) := by
  classical
  refine ⟨(L.takeWhile (fun v => decide (HasLabel tables v))).length, List.Sublist.length_le (List.takeWhile_sublist _), ?_⟩
  intro i v hi
  obtain ⟨hlt, hv⟩ := List.getElem?_eq_some_iff.1 hi
  constructor
  · intro hh
    by_contra hcon
    push Not at hcon
    set n := (L.takeWhile (fun v => decide (HasLabel tables v))).length with hn
    have hnl : n < L.length := by omega
    have hno : ¬ HasLabel tables L[n] := by
      have hd : L.dropWhile (fun v => decide (HasLabel tables v)) = L.drop n := by
        have := List.takeWhile_append_dropWhile (p := fun v => decide (HasLabel tables v)) (l := L)
        conv_rhs => rw [← this]
        rw [List.drop_append_of_le_length (by omega), List.drop_eq_nil_of_le (by omega)]
        rfl
      have hne : L.dropWhile (fun v => decide (HasLabel tables v)) ≠ [] := by
        rw [hd]
        intro he
        have := congrArg List.length he
        simp at this
        omega
      have h0 := List.head_dropWhile_not (fun v => decide (HasLabel tables v)) hne
      have h1 : (L.dropWhile (fun v => decide (HasLabel tables v))).head hne = L[n] := by
        simp only [hd, List.head_drop]
      rw [h1] at h0
      simpa using h0
    rcases Nat.lt_or_ge n i with hni | hni
    · apply hno
      apply h L[n] (List.getElem_mem hnl) v (List.mem_of_getElem? hi) _ hh
      rw [hnd.idxOf_getElem n hnl, ← hv, hnd.idxOf_getElem i hlt]
      exact hni
    · have : i = n := by omega
      subst this
      rw [hv] at hno
      exact hno hh
  · intro hin
    have hp := List.takeWhile_prefix (fun v => decide (HasLabel tables v)) (l := L)
    have : v ∈ L.takeWhile (fun v => decide (HasLabel tables v)) := by
      have := hp.getElem hin
      rw [hv] at this
      rw [← this]
      exact List.getElem_mem hin
    simpa using List.mem_takeWhile_imp this

/-- A row of the filtered cache is a row of the source. -/
theorem filtered_source {calls : List (List Classif)} {d g p : Option Expr} {tables frags : List (List Row)}
    (ht : tables.flatten.Perm (Loader.init.addAll calls).rows.flatten) (hf : frags.flatten.Perm (filterTables d g p tables).flatten) {r : Row}
    (hr : r ∈ frags.flatten) : r ∈ (Loader.init.addAll calls).rows.flatten := by
  apply ht.subset
  have hr := hf.subset hr
  obtain ⟨t, ht, hr⟩ := List.mem_flatten.1 hr
  obtain ⟨s, hs, rfl⟩ := List.mem_map.1 ht
  refine List.mem_flatten.2 ⟨s, hs, ?_⟩
  have := (List.mem_filter.1 hr).1
  unfold readTable at this
  cases d with
  | none => exact this
  | some e => exact (List.mem_filter.1 this).1

/-- The ids of a filtered row are those of its labels. -/
theorem filtered_ids {calls : List (List Classif)} (hv : ∀ c ∈ calls.flatten, c.valid = true) {d g p : Option Expr} {tables frags : List (List Row)}
    (ht : tables.flatten.Perm (Loader.init.addAll calls).rows.flatten) (hf : frags.flatten.Perm (filterTables d g p tables).flatten) {r : Row}
    (hr : r ∈ frags.flatten) :
    (r.gtLabel ∈ (Loader.init.addAll calls).labels ∧ r.gt = ((Loader.init.addAll calls).labels.idxOf r.gtLabel : Nat)) ∧
    (r.pdLabel ∈ (Loader.init.addAll calls).labels ∧ r.pd = ((Loader.init.addAll calls).labels.idxOf r.pdLabel : Nat)) := by
  have h := filtered_source ht hf hr
  rw [rows_reach calls] at h
  obtain ⟨k, c, i, p, s, hk, hp, _, rfl⟩ := mem_reach.1 h
  have hc := covers_reach calls hv c (List.mem_of_getElem? hk)
  exact ⟨⟨hc.gt, rfl⟩, ⟨hc.preds p (List.mem_of_getElem? hp), rfl⟩⟩

/-- The labels that `load` reads from the filtered cache. -/
theorem reloaded_labels {calls : List (List Classif)} (hv : ∀ c ∈ calls.flatten, c.valid = true) {d g p : Option Expr} {tables frags : List (List Row)}
    (ht : tables.flatten.Perm (Loader.init.addAll calls).rows.flatten) (hf : frags.flatten.Perm (filterTables d g p tables).flatten) :
    let D := extractLabels (frags.map (fun t => t.map labelCols))
    (D.map Prod.fst).Nodup ∧ ∀ (i : Int) (s : String), D.lookup i = some s ↔
      0 ≤ i ∧ (Loader.init.addAll calls).labels[i.toNat]? = some s ∧ HasLabel frags s := by
  intro D
  have hnd : (Loader.init.addAll calls).labels.Nodup := (linv_reach calls).nodup
  set L := (Loader.init.addAll calls).labels with hL
  have hlab : ∀ v ∈ L, L[L.idxOf v]? = some v := by
    intro v hv
    rw [List.getElem?_eq_getElem (List.idxOf_lt_length_of_mem hv)]
    simp
  have hflat : (frags.map (fun t => t.map labelCols)).flatten = frags.flatten.map labelCols := by rw [List.map_flatten]
  obtain ⟨e1, e2⟩ := C50_extract (f := fun i => (L[i.toNat]?).getD "") (frags.map (fun t => t.map labelCols)) (by
    rw [hflat]
    intro r hr
    obtain ⟨x, hx, rfl⟩ := List.mem_map.1 hr
    obtain ⟨⟨q1, q2⟩, q3, q4⟩ := filtered_ids hv ht hf hx
    simp only [labelCols, q2, q4, Int.toNat_natCast]
    rw [hlab _ q1, hlab _ q3]
    exact ⟨fun _ => rfl, fun _ => rfl⟩)
  refine ⟨e1, fun i s => ?_⟩
  rw [e2, hflat]
  constructor
  · rintro ⟨⟨hne, r, hr, he⟩, rfl⟩
    obtain ⟨x, hx, rfl⟩ := List.mem_map.1 hr
    obtain ⟨⟨q1, q2⟩, q3, q4⟩ := filtered_ids hv ht hf hx
    simp only [labelCols] at he
    rcases he with rfl | rfl
    · rw [q2, Int.toNat_natCast, hlab _ q1]
      exact ⟨Int.natCast_nonneg _, rfl, x, hx, Or.inl rfl⟩
    · rw [q4, Int.toNat_natCast, hlab _ q3]
      exact ⟨Int.natCast_nonneg _, rfl, x, hx, Or.inr rfl⟩
  · rintro ⟨h0, hs, x, hx, hu⟩
    obtain ⟨⟨q1, q2⟩, q3, q4⟩ := filtered_ids hv ht hf hx
    refine ⟨⟨by omega, labelCols x, List.mem_map_of_mem hx, ?_⟩, by rw [hs]; rfl⟩
    obtain ⟨hi, hget⟩ := List.getElem?_eq_some_iff.1 hs
    have hidx : L.idxOf s = i.toNat := by rw [← hget]; exact hnd.idxOf_getElem _ hi
    simp only [labelCols]
    rcases hu with rfl | rfl
    · left
      rw [q2, hidx]
      exact Int.toNat_of_nonneg h0
    · right
      rw [q4, hidx]
      exact Int.toNat_of_nonneg h0

/-- The counts by name, for the first `n` labels. -/
theorem counts_taken {L : List String} (hnd : L.Nodup) {n : Nat} (hn : n ≤ L.length) {frags : List (List Row)}
    (ha : frags.Pairwise (fun a b => ∀ x ∈ a, ∀ y ∈ b, x.datum ≠ y.datum)) (hr : InRange frags.flatten n) (ts : List Rat) (hm : Bool) :
    evalCounts frags ts hm n = some (ts.map (fun t => (L.take n).map (fun v => cnt frags.flatten hm t (L.idxOf v : Nat)))) := by
  rw [evalCounts_eq hr ⟨List.Perm.refl _, ha⟩]
  congr 1
  apply List.map_congr_left
  intro t _
  apply List.ext_getElem
  · simp [hn]
  · intro i h1 h2
    have hi : i < n := by simpa using h1
    simp only [List.getElem_map, List.getElem_range, List.getElem_take]
    rw [hnd.idxOf_getElem i (by omega)]

/-- The report over labels that are the first `n` of `L`. -/
theorem report_taken {L : List String} (hnd : L.Nodup) {n : Nat} (hn : n ≤ L.length) {frags : List (List Row)}
    (ha : frags.Pairwise (fun a b => ∀ x ∈ a, ∀ y ∈ b, x.datum ≠ y.datum)) (hr : InRange frags.flatten n) {ts : List Rat} (hts : ts ≠ []) (hm : Bool)
    {labels : List (Nat × String)} (hlen : labels.length = n) (hl : ∀ lb ∈ labels, (L.take n)[lb.1]? = some lb.2) :
    let c := fun t v => cnt frags.flatten hm t (L.idxOf v : Nat)
    reportPrecisionRecall frags ts hm labels =
      some ⟨ts.map (fun t => Metric.accuracy (accuracy (L.map (c t)) (numberOfDatums frags)) t hm),
          perCell labels ts (fun l t => Metric.counts (c t l).tp (c t l).fp (c t l).fn (c t l).tn t hm l),
          perCell labels ts (fun l t => Metric.precision (precision (c t l)) t hm l),
          perCell labels ts (fun l t => Metric.recall (recall (c t l)) t hm l),
          perCell labels ts (fun l t => Metric.f1Score (f1 (precision (c t l)) (recall (c t l))) t hm l)⟩ := by
  intro c
  unfold reportPrecisionRecall computePrecisionRecall
  rw [if_neg (by simpa using hts), hlen]
  simp only
  rw [counts_taken hnd hn ha hr, Option.map_some, Option.bind_some, List.map_map]
  have := unpackPrecisionRecall_eq (ts := ts) hl hm (numberOfDatums frags) c
  refine Eq.trans this ?_
  have hacc : ∀ t, accuracy ((L.take n).map (c t)) (numberOfDatums frags) = accuracy (L.map (c t)) (numberOfDatums frags) := by
    intro t
    unfold accuracy
    have hz : ((L.drop n).map (fun v => (c t v).tp)).sum = 0 := by
      rw [List.sum_eq_zero]
      intro x hx
      obtain ⟨v, hv, rfl⟩ := List.mem_map.1 hx
      show List.countP _ _ = 0
      rw [List.countP_eq_zero]
      intro r hrr
      have hrange := (hr r hrr).2
      have hge : n ≤ L.idxOf v := by
        obtain ⟨i, hi, he⟩ := List.mem_iff_getElem.1 hv
        rw [List.length_drop] at hi
        rw [List.getElem_drop] at he
        rw [← he, hnd.idxOf_getElem _ (by omega)]
        omega
      have : ¬ r.pd = ((L.idxOf v : Nat) : Int) := by omega
      simp [this]
    have : ((L.map (c t)).map Counts.tp).sum = (((L.take n).map (c t)).map Counts.tp).sum := by
      conv_lhs => rw [← List.take_append_drop n L]
      rw [List.map_append, List.map_append, List.sum_append, List.map_map (l := L.drop n)]
      have e : (Counts.tp ∘ c t) = fun v => (c t v).tp := rfl
      rw [e, hz, Nat.add_zero]
    rw [this]
  simp only [hacc]

/-- Label and threshold metrics of lists over labels. -/
theorem mem_perCell {labels : List (Nat × String)} {ts : List Rat} {f : String → Rat → Metric} (hf : ∀ v t, (f v t).label = some v) {m : Metric}
    {v : String} (hm : m.label = some v) : m ∈ perCell labels ts f ↔ (∃ k, (k, v) ∈ labels) ∧ ∃ t ∈ ts, m = f v t := by
  unfold perCell
  rw [List.mem_flatMap]
  constructor
  · rintro ⟨lb, hlb, h⟩
    obtain ⟨t, ht, rfl⟩ := List.mem_map.1 h
    rw [hf] at hm
    cases hm
    exact ⟨⟨lb.1, hlb⟩, t, ht, rfl⟩
  · rintro ⟨⟨k, hk⟩, t, ht, rfl⟩
    exact ⟨(k, v), hk, List.mem_map.2 ⟨t, ht, rfl⟩⟩

/-- **C107 (classification).** A filtered evaluation, in any datum-aligned layout, loaded without override. If no label that the filter removed
has an id below a label that is left, both evaluators give a report. The accuracies are the same; the loaded evaluator has the counts,
precision, recall and F1 of the labels that are left, unchanged, and none of other labels. -/
theorem C107_classification_partial (calls : List (List Classif)) (hv : ∀ c ∈ calls.flatten, c.valid = true) {d g p : Option Expr}
    {tables frags : List (List Row)} (ht : tables.flatten.Perm (Loader.init.addAll calls).rows.flatten)
    (hf : FragmentsOf frags (filterTables d g p tables).flatten) (hgap : NoGap (Loader.init.addAll calls).labels frags)
    {ts : List Rat} (hts : ts ≠ []) (hm : Bool) :
    ∃ R A, reportPrecisionRecall frags ts hm (evalLabels tables) = some R ∧ reportPrecisionRecall frags ts hm (evalLabels frags) = some A ∧
      (∀ v ∈ (Loader.init.addAll calls).labels, ∀ t ∈ ts, ∃ x, ⟨"Precision", .number x, some t, some hm, some v⟩ ∈ R.precision) ∧
      A.accuracy = R.accuracy ∧
      ∀ m v, m.label = some v → (m ∈ A.counts ↔ m ∈ R.counts ∧ HasLabel frags v) ∧ (m ∈ A.precision ↔ m ∈ R.precision ∧ HasLabel frags v) ∧
        (m ∈ A.recall ↔ m ∈ R.recall ∧ HasLabel frags v) ∧ (m ∈ A.f1 ↔ m ∈ R.f1 ∧ HasLabel frags v) := by
  have hnd : (Loader.init.addAll calls).labels.Nodup := (linv_reach calls).nodup
  obtain ⟨a1, _, a3⟩ := C50_classification calls hv tables ht
  obtain ⟨b1, b3⟩ := reloaded_labels hv ht hf.perm
  set L := (Loader.init.addAll calls).labels with hL
  obtain ⟨n, hn, hpre⟩ := noGap_prefix hnd hgap
  have b3' : ∀ (i : Int) (s : String), (extractLabels (frags.map (fun t => t.map labelCols))).lookup i = some s ↔
      0 ≤ i ∧ (L.take n)[i.toNat]? = some s := by
    intro i s
    rw [b3]
    constructor
    · rintro ⟨h0, h1, h2⟩
      refine ⟨h0, ?_⟩
      rw [List.getElem?_take, if_pos ((hpre _ _ h1).1 h2)]
      exact h1
    · rintro ⟨h0, h1⟩
      rw [List.getElem?_take] at h1
      split at h1
      · exact ⟨h0, h1, (hpre _ _ h1).2 ‹_›⟩
      · simp at h1
  have hidx : ∀ v ∈ L, L[L.idxOf v]? = some v := by
    intro v hv
    rw [List.getElem?_eq_getElem (List.idxOf_lt_length_of_mem hv)]
    simp
  have hin : InRange frags.flatten n := by
    intro r hr
    obtain ⟨⟨q1, q2⟩, q3, q4⟩ := filtered_ids hv ht hf.perm hr
    have u1 := (hpre _ _ (hidx _ q1)).1 ⟨r, hr, Or.inl rfl⟩
    have u2 := (hpre _ _ (hidx _ q3)).1 ⟨r, hr, Or.inr rfl⟩
    rw [q2, q4]
    exact ⟨⟨Int.natCast_nonneg _, by exact_mod_cast u1⟩, ⟨Int.natCast_nonneg _, by exact_mod_cast u2⟩⟩
  have hinL : InRange frags.flatten L.length := by
    intro r hr
    have := hin r hr
    omega
  have eR := report_taken hnd (le_refl L.length) hf.aligned hinL hts hm (labels := evalLabels tables) (numbered_length a1 a3)
    (by rw [List.take_length]; exact fun lb hlb => numbered_label a1 a3 hlb)
  have eA := report_taken hnd hn hf.aligned hin hts hm (labels := evalLabels frags)
    (by rw [evalLabels, numbered_length b1 b3', List.length_take]; omega) (fun lb hlb => numbered_label b1 b3' hlb)
  have namesR : ∀ v, (∃ k, (k, v) ∈ evalLabels tables) ↔ v ∈ L := by
    intro v
    have := (numbered_names a1 a3).mem_iff (a := v)
    rw [← this, List.mem_map]
    constructor
    · rintro ⟨k, hk⟩; exact ⟨_, hk, rfl⟩
    · rintro ⟨x, hx, rfl⟩; exact ⟨x.1, hx⟩
  have namesA : ∀ v, (∃ k, (k, v) ∈ evalLabels frags) ↔ v ∈ L ∧ HasLabel frags v := by
    intro v
    have := (numbered_names b1 b3').mem_iff (a := v)
    have h2 : v ∈ L.take n ↔ v ∈ L ∧ HasLabel frags v := by
      constructor
      · intro h
        obtain ⟨i, hi⟩ := List.mem_iff_getElem?.1 h
        rw [List.getElem?_take] at hi
        split at hi
        · exact ⟨List.mem_of_getElem? hi, (hpre _ _ hi).2 ‹_›⟩
        · simp at hi
      · rintro ⟨h, hh⟩
        refine List.mem_iff_getElem?.2 ⟨L.idxOf v, ?_⟩
        rw [List.getElem?_take, if_pos ((hpre _ _ (hidx v h)).1 hh)]
        exact hidx v h
    rw [← h2, ← this, List.mem_map]
    constructor
    · rintro ⟨k, hk⟩; exact ⟨_, hk, rfl⟩
    · rintro ⟨x, hx, rfl⟩; exact ⟨x.1, hx⟩
  refine ⟨_, _, eR, eA, ?_, rfl, ?_⟩
  · intro v hv t ht
    refine ⟨precision (cnt frags.flatten hm t (L.idxOf v : Nat)), ?_⟩
    exact (mem_perCell (f := fun l t => Metric.precision (precision (cnt frags.flatten hm t (L.idxOf l : Nat))) t hm l) (fun _ _ => rfl) rfl).2
      ⟨(namesR v).2 hv, t, ht, rfl⟩
  · intro m v hmv
    refine ⟨?_, ?_, ?_, ?_⟩ <;>
    · rw [mem_perCell (fun _ _ => rfl) hmv, mem_perCell (fun _ _ => rfl) hmv, namesR, namesA]
      tauto

theorem mapM_lost {α β : Type} {f : α → Option β} {l : List α} {a : α} (ha : a ∈ l) (h : f a = none) : l.mapM f = none := by
  induction l with
  | nil => simp at ha
  | cons x xs ih =>
    rw [List.mapM_cons]
    rcases List.mem_cons.1 ha with rfl | ha
    · rw [h]; rfl
    · rw [ih ha]
      cases f x <;> rfl

theorem computeCounts_width {rows : List Row} {ts : List Rat} {h : Bool} {n : Nat} {R : List (List Counts)} (hR : computeCounts rows ts h n = some R) :
    ∀ row ∈ R, row.length = n := by
  unfold computeCounts at hR
  split at hR
  · cases hR
    intro row hrow
    obtain ⟨t, _, rfl⟩ := List.mem_map.1 hrow
    simp
  · intro row hrow
    clear * - hR hrow
    induction ts generalizing R with
    | nil => rw [List.mapM_nil] at hR; cases hR; simp at hrow
    | cons t ts ih =>
      rw [List.mapM_cons] at hR
      cases h1 : countsAt rows h n t with
      | none => rw [h1] at hR; cases hR
      | some c =>
        rw [h1] at hR
        cases h2 : ts.mapM (countsAt rows h n) with
        | none => rw [h2] at hR; cases hR
        | some cs =>
          rw [h2] at hR
          cases hR
          rcases List.mem_cons.1 hrow with rfl | hrow
          · unfold countsAt at h1
            simp only [Option.bind_eq_bind, Option.bind_eq_some_iff, Option.pure_def, Option.some.injEq] at h1
            obtain ⟨_, _, _, _, _, _, _, _, rfl⟩ := h1
            simp
          · exact ih h2 hrow

theorem evalCounts_width {frags : List (List Row)} {ts : List Rat} {h : Bool} {n : Nat} {R : List (List Counts)} (hR : evalCounts frags ts h n = some R) :
    ∀ row ∈ R, row.length ≤ n := by
  unfold evalCounts at hR
  have key : ∀ (frags : List (List Row)) (acc R : List (List Counts)), (∀ row ∈ acc, row.length ≤ n) →
      frags.foldlM (fun acc f => (computeCounts f ts h n).map (addAll acc)) acc = some R → ∀ row ∈ R, row.length ≤ n := by
    intro frags
    induction frags with
    | nil =>
      intro acc R ha hR
      rw [List.foldlM_nil] at hR
      cases hR
      exact ha
    | cons f fs ih =>
      intro acc R ha hR
      rw [List.foldlM_cons] at hR
      cases hc : computeCounts f ts h n with
      | none => rw [hc] at hR; cases hR
      | some c =>
        rw [hc] at hR
        refine ih _ R ?_ hR
        intro row hrow
        unfold addAll at hrow
        obtain ⟨i, hi, rfl⟩ := List.mem_iff_getElem.1 hrow
        rw [List.length_zipWith] at hi
        rw [List.getElem_zipWith, List.length_zipWith]
        have := ha acc[i] (List.getElem_mem (by omega))
        omega
  exact key frags _ R (by intro row hrow; obtain ⟨t, _, rfl⟩ := List.mem_map.1 hrow; simp) hR

/-- **C107 (classification, gaps).** In the other case the loaded evaluator raises for every request. -/
theorem C107_classification_gap (calls : List (List Classif)) (hv : ∀ c ∈ calls.flatten, c.valid = true) {d g p : Option Expr}
    {tables frags : List (List Row)} (ht : tables.flatten.Perm (Loader.init.addAll calls).rows.flatten)
    (hf : frags.flatten.Perm (filterTables d g p tables).flatten) (hgap : ¬ NoGap (Loader.init.addAll calls).labels frags)
    (ts : List Rat) (hm : Bool) : reportPrecisionRecall frags ts hm (evalLabels frags) = none := by
  have hnd : (Loader.init.addAll calls).labels.Nodup := (linv_reach calls).nodup
  obtain ⟨b1, b3⟩ := reloaded_labels hv ht hf
  set L := (Loader.init.addAll calls).labels with hL
  unfold NoGap at hgap
  push Not at hgap
  obtain ⟨o, ho, v, hvL, hlt, hh, hno⟩ := hgap
  have hidx : ∀ v ∈ L, L[L.idxOf v]? = some v := by
    intro v hv
    rw [List.getElem?_eq_getElem (List.idxOf_lt_length_of_mem hv)]
    simp
  have hmem : ∀ lb : Nat × String, lb ∈ evalLabels frags ↔ L[lb.1]? = some lb.2 ∧ HasLabel frags lb.2 := by
    intro lb
    unfold evalLabels numbered
    rw [List.mem_map]
    constructor
    · rintro ⟨x, hx, rfl⟩
      exact ((b3 x.1 x.2).1 (lookup_of_mem b1 hx)).2
    · intro h
      have := (b3 (lb.1 : Int) lb.2).2 ⟨Int.natCast_nonneg _, by simpa using h⟩
      rw [List.lookup_eq_some_iff] at this
      obtain ⟨l1, l2, he, _⟩ := this
      exact ⟨((lb.1 : Int), lb.2), by rw [he]; simp, by simp⟩
  have hkeys : ((evalLabels frags).map Prod.fst).Nodup := by
    unfold evalLabels numbered
    rw [List.map_map]
    have hmap : ∀ D : List (Int × String), (D.map (Prod.fst ∘ fun x : Int × String => (x.1.toNat, x.2))) = (D.map Prod.fst).map Int.toNat := by
      intro D; rw [List.map_map]; rfl
    rw [hmap]
    apply List.Nodup.map_on _ b1
    intro a ha b hb hab
    obtain ⟨x, hx, rfl⟩ := List.mem_map.1 ha
    obtain ⟨y, hy, rfl⟩ := List.mem_map.1 hb
    have ha0 := ((b3 x.1 x.2).1 (lookup_of_mem b1 hx)).1
    have hb0 := ((b3 y.1 y.2).1 (lookup_of_mem b1 hy)).1
    omega
  -- a label with an id that is too large
  have hbad : ∃ lb ∈ evalLabels frags, (evalLabels frags).length ≤ lb.1 := by
    by_contra hcon
    push Not at hcon
    have hp : ((evalLabels frags).map Prod.fst).Perm (List.range (evalLabels frags).length) :=
      (hkeys.subperm (fun k hk => by
        obtain ⟨lb, hlb, rfl⟩ := List.mem_map.1 hk
        exact List.mem_range.2 (hcon lb hlb))).perm_of_length_le (by simp)
    have hvk := hcon (L.idxOf v, v) ((hmem _).2 ⟨hidx v hvL, hh⟩)
    have hok : L.idxOf o ∈ (evalLabels frags).map Prod.fst := hp.mem_iff.2 (List.mem_range.2 (lt_trans hlt hvk))
    obtain ⟨lb, hlb, he⟩ := List.mem_map.1 hok
    obtain ⟨q1, q2⟩ := (hmem lb).1 hlb
    rw [he, hidx o ho] at q1
    exact hno (Option.some.inj q1 ▸ q2)
  obtain ⟨lb, hlb, hge⟩ := hbad
  unfold reportPrecisionRecall computePrecisionRecall
  split
  · rfl
  · rename_i hts
    simp only
    cases hc : evalCounts frags ts hm (evalLabels frags).length with
    | none => rfl
    | some R =>
      rw [Option.map_some, Option.bind_some]
      have hw := evalCounts_width hc
      have hcell : ∀ x : Rat × Nat, unpackCell (R.map (toMetrics (numberOfDatums frags))) hm lb x = none := by
        intro x
        unfold unpackCell
        rw [List.getElem?_map]
        cases hx : R[x.2]? with
        | none => rfl
        | some row =>
          have := hw row (List.mem_of_getElem? hx)
          simp only [Option.map_some, Option.bind_eq_bind, Option.bind_some, toMetrics]
          rw [List.getElem?_eq_none (by rw [List.length_map]; omega)]
          rfl
      unfold unpackPrecisionRecall
      have hlost : (evalLabels frags).mapM (fun lb => ts.zipIdx.mapM (unpackCell (R.map (toMetrics (numberOfDatums frags))) hm lb)) = none := by
        apply mapM_lost hlb
        cases ts with
        | nil => simp at hts
        | cons t ts =>
          rw [List.zipIdx_cons]
          exact mapM_lost (List.mem_cons_self) (hcell _)
      rw [hlost]
      cases ts.zipIdx.mapM (fun x => ((R.map (toMetrics (numberOfDatums frags)))[x.2]?).map (fun m => Metric.accuracy m.accuracy x.1 hm)) <;> rfl

/-- The claim: for a filtered evaluation in any layout the evaluator that `load` gives (without override) has the metrics of the evaluator that
`filter` returned. `P` is asked of the labels of the source and of the filtered tables. -/
def Reloads (P : List String → List (List Row) → Prop) : Prop :=
  ∀ (calls : List (List Classif)), (∀ c ∈ calls.flatten, c.valid = true) → ∀ (d g p : Option Expr) (tables frags : List (List Row)),
    tables.flatten.Perm (Loader.init.addAll calls).rows.flatten → FragmentsOf frags (filterTables d g p tables).flatten → frags.flatten ≠ [] →
    P (Loader.init.addAll calls).labels frags → ∀ (ts : List Rat), ts ≠ [] → ∀ hm : Bool,
    ∃ R A, reportPrecisionRecall frags ts hm (evalLabels tables) = some R ∧ reportPrecisionRecall frags ts hm (evalLabels frags) = some A ∧
      A.accuracy = R.accuracy ∧ (∀ m, m ∈ A.counts ↔ m ∈ R.counts) ∧ (∀ m, m ∈ A.precision ↔ m ∈ R.precision) ∧
      (∀ m, m ∈ A.recall ↔ m ∈ R.recall) ∧ ∀ m, m ∈ A.f1 ↔ m ∈ R.f1

/-- The claim holds if the filter removed no label. -/
theorem C107_classification_all_partial : Reloads (fun L frags => ∀ v ∈ L, HasLabel frags v) := by
  intro calls hv d g p tables frags ht hf _ hall ts hts hm
  obtain ⟨R, A, h1, h2, _, h4, h5⟩ := C107_classification_partial calls hv ht hf (fun o ho _ _ _ _ => hall o ho) hts hm
  refine ⟨R, A, h1, h2, h4, ?_⟩
  -- the metrics of the four lists have labels of the source
  have hnd : (Loader.init.addAll calls).labels.Nodup := (linv_reach calls).nodup
  obtain ⟨a1, _, a3⟩ := C50_classification calls hv tables ht
  obtain ⟨b1, b3⟩ := reloaded_labels hv ht hf.perm
  have b3' : ∀ (i : Int) (s : String), (extractLabels (frags.map (fun t => t.map labelCols))).lookup i = some s ↔
      0 ≤ i ∧ (Loader.init.addAll calls).labels[i.toNat]? = some s := by
    intro i s
    rw [b3]
    exact ⟨fun h => ⟨h.1, h.2.1⟩, fun h => ⟨h.1, h.2, hall _ (List.mem_of_getElem? h.2)⟩⟩
  have hin : InRange frags.flatten (Loader.init.addAll calls).labels.length :=
    fun r hr => inRange_reach calls r (filtered_source ht hf.perm hr)
  have eR := report_taken hnd (le_refl _) hf.aligned hin hts hm (labels := evalLabels tables) (numbered_length a1 a3)
    (by rw [List.take_length]; exact fun lb hlb => numbered_label a1 a3 hlb)
  have eA := report_taken hnd (le_refl _) hf.aligned hin hts hm (labels := evalLabels frags) (numbered_length b1 b3')
    (by rw [List.take_length]; exact fun lb hlb => numbered_label b1 b3' hlb)
  rw [h1] at eR
  rw [h2] at eA
  cases eR
  cases eA
  have hp : (evalLabels frags).Perm (evalLabels tables) := by
    have k1 := numbered_keys a1 a3
    have k2 := numbered_keys b1 b3'
    have n1 : (evalLabels tables).Nodup := List.Nodup.of_map _ (k1.nodup_iff.2 List.nodup_range)
    have n2 : (evalLabels frags).Nodup := List.Nodup.of_map _ (k2.nodup_iff.2 List.nodup_range)
    rw [List.perm_ext_iff_of_nodup n2 n1]
    have key : ∀ (D E : List (Nat × String)), ((D.map Prod.fst).Perm (List.range (Loader.init.addAll calls).labels.length)) →
        (∀ lb ∈ D, (Loader.init.addAll calls).labels[lb.1]? = some lb.2) → (∀ lb ∈ E, (Loader.init.addAll calls).labels[lb.1]? = some lb.2) →
        ∀ lb ∈ E, lb ∈ D := by
      intro D E hk hD hE lb hlb
      have h := hE lb hlb
      have : lb.1 ∈ D.map Prod.fst := by
        rw [hk.mem_iff, List.mem_range]
        exact (List.getElem?_eq_some_iff.1 h).1
      obtain ⟨x, hx, he⟩ := List.mem_map.1 this
      have h' := hD x hx
      rw [he, h] at h'
      have : x = lb := Prod.ext he (Option.some.inj h').symm
      exact this ▸ hx
    exact fun lb => ⟨key _ _ k1 (fun _ h => numbered_label a1 a3 h) (fun _ h => numbered_label b1 b3' h) lb,
      key _ _ k2 (fun _ h => numbered_label b1 b3' h) (fun _ h => numbered_label a1 a3 h) lb⟩
  unfold perCell
  simp only [List.mem_flatMap, hp.mem_iff, implies_true, and_self]

/-- A cat, then a dog. -/
def catThenDog : List (List Classif) := [[⟨"a", "cat", ["cat"], [1], ""⟩, ⟨"b", "dog", ["dog"], [1], ""⟩]]

/-- The rows of one of them. -/
def onlyDatum (u : String) : List (List Row) :=
  filterTables (some (fun r => decide (r.uid = u))) none none [(Loader.init.addAll catThenDog).rows.flatten]

theorem onlyDatum_stored (u : String) : FragmentsOf (onlyDatum u)
    (filterTables (some (fun r => decide (r.uid = u))) none none [(Loader.init.addAll catThenDog).rows.flatten]).flatten :=
  ⟨List.Perm.refl _, by simp [onlyDatum, filterTables]⟩

theorem onlyDatum_labels (v : String) : (HasLabel (onlyDatum "a") v ↔ v = "cat") ∧ (HasLabel (onlyDatum "b") v ↔ v = "dog") := by
  have ea : (onlyDatum "a").flatten.map (fun r => (r.gtLabel, r.pdLabel)) = [("cat", "cat")] := by decide +kernel
  have eb : (onlyDatum "b").flatten.map (fun r => (r.gtLabel, r.pdLabel)) = [("dog", "dog")] := by decide +kernel
  have key : ∀ (t : List (List Row)) (w : String), t.flatten.map (fun r => (r.gtLabel, r.pdLabel)) = [(w, w)] → (HasLabel t v ↔ v = w) := by
    intro t w e
    obtain ⟨r, hh, e⟩ := List.map_eq_singleton_iff.1 e
    simp only [Prod.mk.injEq] at e
    unfold HasLabel
    rw [hh]
    simp only [List.mem_singleton, exists_eq_left, e.1, e.2, or_self]
    exact eq_comm
  exact ⟨key _ _ ea, key _ _ eb⟩

theorem catThenDog_labels : (Loader.init.addAll catThenDog).labels = ["cat", "dog"] := by decide +kernel

/-- The conditions of `C107_classification_partial` are met by the cat. -/
theorem onlyDatum_noGap : NoGap (Loader.init.addAll catThenDog).labels (onlyDatum "a") := by
  intro o ho v hv hlt hh
  rw [(onlyDatum_labels v).1] at hh
  subst hh
  rw [catThenDog_labels] at hlt
  simp at hlt

theorem onlyDatum_gap : ¬ NoGap (Loader.init.addAll catThenDog).labels (onlyDatum "b") := by
  intro h
  have := h "cat" (by decide +kernel) "dog" (by decide +kernel) (by decide +kernel) (((onlyDatum_labels _).2).2 rfl)
  rw [(onlyDatum_labels _).2] at this
  simp at this

/-- **C107 (classification), violation.** If only the dog is left, the loaded evaluator raises. -/
theorem C107_classification_violation : ¬ Reloads (fun _ _ => True) := by
  intro h
  obtain ⟨_, A, _, h1, _⟩ := h catThenDog (by decide +kernel) _ _ _ _ (onlyDatum "b") (by simp) (onlyDatum_stored "b") (by decide +kernel) trivial
    [1/2] (by simp) true
  rw [C107_classification_gap catThenDog (by decide +kernel) (tables := [(Loader.init.addAll catThenDog).rows.flatten]) (by simp)
    (onlyDatum_stored "b").perm onlyDatum_gap] at h1
  cases h1

/-- **C107 (classification), violation without a gap.** If only the cat is left, the metrics of the dog are missing. -/
theorem C107_classification_missing_violation : ¬ Reloads NoGap := by
  intro h
  obtain ⟨R, A, h1, h2, _, _, h3, _⟩ := h catThenDog (by decide +kernel) _ _ _ _ (onlyDatum "a") (by simp) (onlyDatum_stored "a") (by decide +kernel)
    onlyDatum_noGap [1/2] (by simp) true
  obtain ⟨R', A', g1, g2, g3, _, g4⟩ := C107_classification_partial catThenDog (by decide +kernel)
    (tables := [(Loader.init.addAll catThenDog).rows.flatten]) (by simp) (onlyDatum_stored "a") onlyDatum_noGap (ts := [1/2]) (by simp) true
  rw [h1] at g1
  rw [h2] at g2
  cases g1
  cases g2
  obtain ⟨x, hx⟩ := g3 "dog" (by decide +kernel) (1/2) (by simp)
  have := ((g4 _ "dog" rfl).2.1.1 ((h3 _).2 hx)).2
  rw [(onlyDatum_labels _).1] at this
  simp at this

/-- No label is removed by a filter that keeps everything. -/
example : ∀ v ∈ (Loader.init.addAll catThenDog).labels, HasLabel (filterTables none none none [(Loader.init.addAll catThenDog).rows.flatten]) v := by
  unfold HasLabel
  decide +kernel

end Verif.Classification
