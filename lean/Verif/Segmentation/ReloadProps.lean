import Verif.Segmentation.ReportProps
import Mathlib.Data.List.TakeWhile

/-!
# C107: a filtered segmentation evaluation that is loaded again (`semantic_segmentation/evaluator.py` 164-226, 228-335)

`filter` hands the labels of its source to the evaluator it returns (335); `load` without `index_to_label_override` reads the labels from
the filtered rows.
-/

namespace Verif.Segmentation

open Verif.Shared

/-- Some row of the tables still has the label on one of its sides. -/
def HasLabel (tables : List (List SRow)) (v : String) : Prop :=
  ∃ r ∈ tables.flatten, (r.gl ≠ -1 ∧ r.gtLabel = some v) ∨ (r.pl ≠ -1 ∧ r.pdLabel = some v)

/-- No label that the filter removed has an id below a label that is left. -/
def NoGap (L : List String) (tables : List (List SRow)) : Prop :=
  ∀ o ∈ L, ∀ v ∈ L, L.idxOf o < L.idxOf v → HasLabel tables v → HasLabel tables o

/-- The labels that `load` reads from the tables. -/
def labelsIn (tables : List (List SRow)) : List (Int × String) := extractLabels (tables.map (fun t => t.map labelCols))

theorem readTable_sub {d : Option Expr} {t : List SRow} {r : SRow} (h : r ∈ readTable d t) : r ∈ t := by
  unfold readTable at h
  cases d with
  | none => exact h
  | some d => exact (List.mem_filter.1 h).1

/-- The label ids of a filtered row: -1, or the id of the text. -/
theorem filtered_texts {calls : List (List Seg)} {d g p : Option Expr} {t1 t2 : List (List SRow)}
    (h1 : t1.flatten.Perm (Loader.init.addAll calls).rows.flatten) (h2 : t2.flatten.Perm (filterTables d g p t1).flatten)
    {x : SRow} (hx : x ∈ t2.flatten) :
    (x.gl = -1 ∨ ∃ (i : Nat) (v : String), x.gl = (i : Int) ∧ (Loader.init.addAll calls).labels[i]? = some v ∧ x.gtLabel = some v) ∧
    (x.pl = -1 ∨ ∃ (i : Nat) (v : String), x.pl = (i : Int) ∧ (Loader.init.addAll calls).labels[i]? = some v ∧ x.pdLabel = some v) := by
  have hx := h2.mem_iff.1 hx
  unfold filterTables at hx
  obtain ⟨t', ht', hx⟩ := List.mem_flatten.1 hx
  obtain ⟨t, ht, rfl⟩ := List.mem_map.1 ht'
  unfold filterTable at hx
  obtain ⟨r, hr, rfl⟩ := List.mem_map.1 hx
  have hr := h1.mem_iff.1 (List.mem_flatten.2 ⟨t, ht, readTable_sub hr⟩)
  obtain ⟨k, s, L', _, ⟨q, hq⟩, _, hm⟩ := mem_rows hr
  obtain ⟨c1, c2⟩ := segRows_cols hm
  dsimp only
  constructor
  · split
    · rcases c1 with e | ⟨i, e, hi, e'⟩
      · exact Or.inl e
      · right
        refine ⟨i, L'[i], e, ?_, ?_⟩
        · rw [← hq, List.getElem?_append_left hi, List.getElem?_eq_getElem hi]
        · rw [e', List.getElem?_eq_getElem hi]
    · exact Or.inl rfl
  · split
    · rcases c2 with e | ⟨i, e, hi, e'⟩
      · exact Or.inl e
      · right
        refine ⟨i, L'[i], e, ?_, ?_⟩
        · rw [← hq, List.getElem?_append_left hi, List.getElem?_eq_getElem hi]
        · rw [e', List.getElem?_eq_getElem hi]
    · exact Or.inl rfl

/-- The labels that `load` reads from the filtered cache: those that some row in it has, with the ids of the source. -/
theorem reloaded_labels {calls : List (List Seg)} {d g p : Option Expr} {t1 t2 : List (List SRow)}
    (h1 : t1.flatten.Perm (Loader.init.addAll calls).rows.flatten) (h2 : t2.flatten.Perm (filterTables d g p t1).flatten) :
    ((labelsIn t2).map Prod.fst).Nodup ∧ ∀ (i : Int) (s : String), (labelsIn t2).lookup i = some s ↔
      0 ≤ i ∧ (Loader.init.addAll calls).labels[i.toNat]? = some s ∧ HasLabel t2 s := by
  have hnd := (loaded calls).nodup
  have hflat : (t2.map (fun t => t.map labelCols)).flatten = t2.flatten.map labelCols := by rw [List.map_flatten]
  obtain ⟨e1, e2⟩ := C50_extract (f := fun i => ((Loader.init.addAll calls).labels[i.toNat]?).getD "") (t2.map (fun t => t.map labelCols)) (by
    rw [hflat]
    intro r hr
    obtain ⟨x, hx, rfl⟩ := List.mem_map.1 hr
    obtain ⟨q1, q2⟩ := filtered_texts h1 h2 hx
    simp only [labelCols]
    constructor
    · intro hne
      rcases q1 with e | ⟨i, v, a1, a2, a3⟩
      · exact absurd e hne
      · rw [a1, a3, Int.toNat_natCast, a2]
    · intro hne
      rcases q2 with e | ⟨i, v, a1, a2, a3⟩
      · exact absurd e hne
      · rw [a1, a3, Int.toNat_natCast, a2])
  refine ⟨e1, ?_⟩
  intro i s
  unfold labelsIn
  rw [e2, hflat]
  constructor
  · rintro ⟨⟨hne, r, hr, he⟩, rfl⟩
    obtain ⟨x, hx, rfl⟩ := List.mem_map.1 hr
    obtain ⟨q1, q2⟩ := filtered_texts h1 h2 hx
    simp only [labelCols] at he
    rcases he with rfl | rfl
    · rcases q1 with e | ⟨i, v, a1, a2, a3⟩
      · exact absurd e hne
      · rw [a1, Int.toNat_natCast, a2]
        exact ⟨Int.natCast_nonneg _, rfl, x, hx, Or.inl ⟨hne, a3⟩⟩
    · rcases q2 with e | ⟨i, v, a1, a2, a3⟩
      · exact absurd e hne
      · rw [a1, Int.toNat_natCast, a2]
        exact ⟨Int.natCast_nonneg _, rfl, x, hx, Or.inr ⟨hne, a3⟩⟩
  · rintro ⟨h0, hs, x, hx, hu⟩
    obtain ⟨q1, q2⟩ := filtered_texts h1 h2 hx
    have huniq : ∀ {k : Nat}, (Loader.init.addAll calls).labels[k]? = some s → k = i.toNat := by
      intro k hk
      obtain ⟨b1, b2⟩ := List.getElem?_eq_some_iff.1 hk
      obtain ⟨c1, c2⟩ := List.getElem?_eq_some_iff.1 hs
      exact (hnd.getElem_inj_iff (hi := b1) (hj := c1)).1 (b2.trans c2.symm)
    refine ⟨⟨by omega, labelCols x, List.mem_map_of_mem hx, ?_⟩, by rw [hs]; rfl⟩
    simp only [labelCols]
    rcases hu with ⟨u1, u2⟩ | ⟨u1, u2⟩
    · left
      rcases q1 with e | ⟨k, v, a1, a2, a3⟩
      · exact absurd e u1
      · rw [a3] at u2
        cases u2
        have := huniq a2
        omega
    · right
      rcases q2 with e | ⟨k, v, a1, a2, a3⟩
      · exact absurd e u1
      · rw [a3] at u2
        cases u2
        have := huniq a2
        omega

/-- Without a gap the labels that are left are the first labels. -/
theorem noGap_prefix {L : List String} (hnd : L.Nodup) {tables : List (List SRow)} (h : NoGap L tables) :
    ∃ K : List String, K <+: L ∧ ∀ (i : Nat) (s : String), K[i]? = some s ↔ L[i]? = some s ∧ HasLabel tables s := by
  classical
  refine ⟨L.takeWhile (fun v => decide (HasLabel tables v)), List.takeWhile_prefix _, ?_⟩
  set K := L.takeWhile (fun v => decide (HasLabel tables v)) with hK
  have hpre : K <+: L := List.takeWhile_prefix _
  intro i s
  constructor
  · intro hi
    obtain ⟨hl, he⟩ := List.getElem?_eq_some_iff.1 hi
    refine ⟨?_, ?_⟩
    · obtain ⟨q, hq⟩ := hpre
      rw [← hq, List.getElem?_append_left hl, hi]
    · have : s ∈ K := he ▸ List.getElem_mem hl
      simpa using List.mem_takeWhile_imp this
  · rintro ⟨hi, hs⟩
    by_cases hl : i < K.length
    · obtain ⟨q, hq⟩ := hpre
      rw [← hq, List.getElem?_append_left hl] at hi
      exact hi
    · exfalso
      obtain ⟨hiL, he⟩ := List.getElem?_eq_some_iff.1 hi
      have hkl : K.length < L.length := by omega
      have hnot : ¬ HasLabel tables L[K.length] := by
        have hd := List.takeWhile_append_dropWhile (p := fun v => decide (HasLabel tables v)) (l := L)
        have hdl : 0 < (L.dropWhile (fun v => decide (HasLabel tables v))).length := by
          have := congrArg List.length hd
          rw [List.length_append] at this
          change K.length + _ = _ at this
          omega
        have hg : L[K.length] = (L.dropWhile (fun v => decide (HasLabel tables v)))[0] := by
          have e1 : L[K.length]? = (K ++ L.dropWhile (fun v => decide (HasLabel tables v)))[K.length]? := by
            rw [hK, hd]
          rw [List.getElem?_append_right (le_refl _), Nat.sub_self, List.getElem?_eq_getElem hkl, List.getElem?_eq_getElem hdl] at e1
          exact Option.some.inj e1
        rw [hg]
        have := List.dropWhile_get_zero_not (fun v => decide (HasLabel tables v)) L hdl
        simpa using this
      rcases Nat.lt_or_ge K.length i with hlt | hge
      · apply hnot
        refine h _ (List.getElem_mem hkl) s (he ▸ List.getElem_mem hiL) ?_ hs
        rw [hnd.idxOf_getElem _ hkl, ← he, hnd.idxOf_getElem _ hiL]
        exact hlt
      · have : i = K.length := by omega
        subst this
        exact hnot (he ▸ hs)

theorem lookup_mem {d : List (Int × String)} (h : (d.map Prod.fst).Nodup) {x : Int × String} (hx : x ∈ d) : d.lookup x.1 = some x.2 := by
  obtain ⟨l1, l2, he⟩ := List.append_of_mem hx
  rw [List.lookup_eq_some_iff]
  refine ⟨l1, l2, he, ?_⟩
  intro q hq
  rw [he, List.map_append, List.nodup_append] at h
  have := h.2.2 q.1 (List.mem_map_of_mem (f := Prod.fst) hq) x.1 (by simp)
  simpa using this.symm

theorem mem_of_lookup {d : List (Int × String)} {i : Int} {s : String} (h : d.lookup i = some s) : (i, s) ∈ d := by
  rw [List.lookup_eq_some_iff] at h
  obtain ⟨l1, l2, he, _⟩ := h
  rw [he]
  simp

/-! ## The report as a function of the matrix -/

/-- The report of a matrix whose labels are the first numbers. -/
theorem unpack_ok {L : List String} (hnd : L.Nodup) {labels : List (Int × String)}
    (d1 : (labels.map Prod.fst).Nodup) (d2 : ∀ (i : Int) (s : String), labels.lookup i = some s ↔ 0 ≤ i ∧ L[i.toNat]? = some s)
    (M : Nat → Nat → Nat) :
    unpackReport M labels = .ok ⟨[Metric.accuracy (accuracy L.length M)],
      [Metric.confusionMatrix (L.map (fun a => (a, L.map (fun b => (b, iou L.length M (L.idxOf a) (L.idxOf b))))))
        (L.map (fun b => (b, unmatchedPrediction L.length M (L.idxOf b)))) (L.map (fun a => (a, unmatchedGroundtruth L.length M (L.idxOf a))))],
      [Metric.meanIou (meanIou L.length M)],
      labels.map (fun x => Metric.precision (precision L.length M x.1.toNat) x.2), labels.map (fun x => Metric.recall (recall L.length M x.1.toNat) x.2),
      labels.map (fun x => Metric.f1Score (f1 L.length M x.1.toNat) x.2), labels.map (fun x => Metric.iou (iou L.length M x.1.toNat x.1.toNat) x.2)⟩ := by
  have hlen : labels.length = L.length := by
    have := numbered_length d1 d2
    simpa [numbered] using this
  have hidx : ∀ i v, L[i]? = some v → L.idxOf v = i := by
    intro i v hv
    obtain ⟨hlt, he⟩ := List.getElem?_eq_some_iff.1 hv
    rw [← he]
    exact hnd.idxOf_getElem i hlt
  have hcm : comprehension labels L.length (fun i => comprehension labels L.length (fun j => .ok (iou L.length M i j)))
      = .ok (L.map (fun a => (a, L.map (fun b => (b, iou L.length M (L.idxOf a) (L.idxOf b)))))) :=
    comprehension_ok d2 hnd (fun i g hg => comprehension_ok d2 hnd (fun j p hp' => by rw [hidx i g hg, hidx j p hp']))
  have hupr : comprehension labels L.length (fun j => .ok (unmatchedPrediction L.length M j))
      = .ok (L.map (fun b => (b, unmatchedPrediction L.length M (L.idxOf b)))) :=
    comprehension_ok d2 hnd (fun j p hp' => by rw [hidx j p hp'])
  have hugr : comprehension labels L.length (fun i => .ok (unmatchedGroundtruth L.length M i))
      = .ok (L.map (fun a => (a, unmatchedGroundtruth L.length M (L.idxOf a)))) :=
    comprehension_ok d2 hnd (fun j p hp' => by rw [hidx j p hp'])
  have hcells : labels.mapM (fun lb => (axisOf L.length lb.1).bind (fun k => Except.ok
      (Metric.precision (precision L.length M k) lb.2, Metric.recall (recall L.length M k) lb.2, Metric.f1Score (f1 L.length M k) lb.2,
        Metric.iou (iou L.length M k k) lb.2)))
      = (.ok (labels.map (fun x => (Metric.precision (precision L.length M x.1.toNat) x.2, Metric.recall (recall L.length M x.1.toNat) x.2,
        Metric.f1Score (f1 L.length M x.1.toNat) x.2, Metric.iou (iou L.length M x.1.toNat x.1.toNat) x.2))) : Except RepErr _) := by
    apply mapM_ok
    intro lb hlb
    obtain ⟨p0, he⟩ := (d2 lb.1 lb.2).1 (lookup_mem d1 hlb)
    have lt := (List.getElem?_eq_some_iff.1 he).1
    have hax : axisOf L.length lb.1 = .ok lb.1.toNat := by
      unfold axisOf
      rw [if_pos p0, if_pos (by omega)]
    rw [hax]
    rfl
  unfold unpackReport
  dsimp only
  rw [hlen, hcm, hupr, hugr]
  simp only [bind, Except.bind]
  simp only [Except.bind] at hcells
  rw [hcells]
  simp only [List.map_map]
  rfl

/-- Trailing zeros do not count. -/
theorem sum_short {f : Nat → Nat} {n N : Nat} (h : n ≤ N) (hz : ∀ i, n ≤ i → i < N → f i = 0) :
    ((List.range N).map f).sum = ((List.range n).map f).sum := by
  obtain ⟨k, rfl⟩ := Nat.exists_eq_add_of_le h
  rw [List.range_add, List.map_append, List.sum_append, List.map_map]
  have : ((List.range k).map (f ∘ fun x => n + x)).sum = 0 := by
    apply List.sum_eq_zero
    intro y hy
    obtain ⟨j, hj, rfl⟩ := List.mem_map.1 hy
    have := List.mem_range.1 hj
    exact hz (n + j) (by omega) (by omega)
  omega

theorem sum_shortRat {f : Nat → Rat} {n N : Nat} (h : n ≤ N) (hz : ∀ i, n ≤ i → i < N → f i = 0) :
    ((List.range N).map f).sum = ((List.range n).map f).sum := by
  obtain ⟨k, rfl⟩ := Nat.exists_eq_add_of_le h
  rw [List.range_add, List.map_append, List.sum_append, List.map_map]
  have : ((List.range k).map (f ∘ fun x => n + x)).sum = 0 := by
    apply List.sum_eq_zero
    intro y hy
    obtain ⟨j, hj, rfl⟩ := List.mem_map.1 hy
    have := List.mem_range.1 hj
    exact hz (n + j) (by omega) (by omega)
  rw [this, add_zero]

/-- Two matrices that agree on the first `n` labels, of which the larger is zero elsewhere. -/
structure Crop (n N : Nat) (m M : Nat → Nat → Nat) : Prop where
  le : n ≤ N
  same : ∀ i j, i ≤ n → j ≤ n → M i j = m i j
  zero : ∀ i j, n < i ∨ n < j → M i j = 0

namespace Crop

variable {n N : Nat} {m M : Nat → Nat → Nat}

theorem gt (h : Crop n N m M) {i : Nat} (hi : i < n) : gtCounts N M i = gtCounts n m i := by
  unfold gtCounts
  rw [sum_short (n := n + 1) (N := N + 1) (by have := h.le; omega) (fun j hj _ => h.zero _ _ (Or.inr (by omega))),
    List.map_congr_left (fun j hj => h.same (i + 1) j (by omega) (by have := List.mem_range.1 hj; omega))]

theorem pd (h : Crop n N m M) {j : Nat} (hj : j < n) : pdCounts N M j = pdCounts n m j := by
  unfold pdCounts
  rw [sum_short (n := n + 1) (N := N + 1) (by have := h.le; omega) (fun i hi _ => h.zero _ _ (Or.inl (by omega))),
    List.map_congr_left (fun i hi => h.same i (j + 1) (by have := List.mem_range.1 hi; omega) (by omega))]

theorem pixels (h : Crop n N m M) : nPixels N M = nPixels n m := by
  unfold nPixels
  rw [sum_short (n := n + 1) (N := N + 1) (by have := h.le; omega) (fun i hi _ => by
    apply List.sum_eq_zero
    intro y hy
    obtain ⟨j, _, rfl⟩ := List.mem_map.1 hy
    exact h.zero _ _ (Or.inl (by omega)))]
  congr 2
  apply congrArg
  apply List.map_congr_left
  intro i hi
  have hi := List.mem_range.1 hi
  rw [sum_short (n := n + 1) (N := N + 1) (by have := h.le; omega) (fun j hj _ => h.zero _ _ (Or.inr (by omega))),
    List.map_congr_left (fun j hj => h.same i j (by omega) (by have := List.mem_range.1 hj; omega))]

theorem iou (h : Crop n N m M) {i j : Nat} (hi : i < n) (hj : j < n) : Segmentation.iou N M i j = Segmentation.iou n m i j := by
  unfold Segmentation.iou
  rw [h.gt hi, h.pd hj, h.same _ _ (by omega) (by omega)]

theorem precision (h : Crop n N m M) {i : Nat} (hi : i < n) : Segmentation.precision N M i = Segmentation.precision n m i := by
  unfold Segmentation.precision
  rw [h.pd hi, h.same _ _ (by omega) (by omega)]

theorem recall (h : Crop n N m M) {i : Nat} (hi : i < n) : Segmentation.recall N M i = Segmentation.recall n m i := by
  unfold Segmentation.recall
  rw [h.gt hi, h.same _ _ (by omega) (by omega)]

theorem f1 (h : Crop n N m M) {i : Nat} (hi : i < n) : Segmentation.f1 N M i = Segmentation.f1 n m i := by
  unfold Segmentation.f1
  rw [h.precision hi, h.recall hi]

theorem unmatchedPd (h : Crop n N m M) {j : Nat} (hj : j < n) : unmatchedPrediction N M j = unmatchedPrediction n m j := by
  unfold unmatchedPrediction
  rw [h.pd hj, h.same _ _ (by omega) (by omega)]

theorem unmatchedGt (h : Crop n N m M) {j : Nat} (hj : j < n) : unmatchedGroundtruth N M j = unmatchedGroundtruth n m j := by
  unfold unmatchedGroundtruth
  rw [h.gt hj, h.same _ _ (by omega) (by omega)]

theorem accuracy (h : Crop n N m M) : Segmentation.accuracy N M = Segmentation.accuracy n m := by
  unfold Segmentation.accuracy
  dsimp only
  rw [h.pixels, h.same 0 0 (by omega) (by omega), sum_short h.le (fun i hi _ => h.zero _ _ (Or.inl (by omega))),
    List.map_congr_left (fun i hi => h.same (i + 1) (i + 1) (by have := List.mem_range.1 hi; omega) (by have := List.mem_range.1 hi; omega))]

theorem ious (h : Crop n N m M) : ((List.range N).map (fun i => Segmentation.iou N M i i)).sum = ((List.range n).map (fun i => Segmentation.iou n m i i)).sum := by
  rw [sum_shortRat h.le (fun i hi _ => by
    unfold Segmentation.iou divide
    rw [h.zero _ _ (Or.inl (by omega))]
    simp)]
  congr 1
  apply List.map_congr_left
  intro i hi
  have := List.mem_range.1 hi
  exact h.iou this this

end Crop

/-- The matrix of the first labels, if no row has another label. -/
theorem crop_matrix {n N : Nat} (h : n ≤ N) {tables : List (List SRow)} (q : Option Expr)
    (hz : ∀ r ∈ tables.flatten, r.gl < n ∧ r.pl < n) : Crop n N (confusionMatrix n q tables) (confusionMatrix N q tables) where
  le := h
  same i j hi hj := by
    unfold confusionMatrix
    rw [if_pos ⟨by omega, by omega⟩, if_pos ⟨hi, hj⟩]
  zero i j hij := by
    unfold confusionMatrix
    split
    · have hent : ∀ t ∈ tables, tableEntry (readTable q t) i j = 0 := by
        intro t ht
        have hemp : (readTable q t).filter (fun r => isSide i r.gl && isSide j r.pl) = [] := by
          rw [List.filter_eq_nil_iff]
          intro r hr
          obtain ⟨z1, z2⟩ := hz r (List.mem_flatten.2 ⟨t, ht, readTable_sub hr⟩)
          rcases hij with hi | hj
          · obtain ⟨i, rfl⟩ : ∃ k, i = k + 1 := ⟨i - 1, by omega⟩
            have : isSide (i + 1) r.gl = false := by
              simp [isSide]
              omega
            simp [this]
          · obtain ⟨j, rfl⟩ : ∃ k, j = k + 1 := ⟨j - 1, by omega⟩
            have : isSide (j + 1) r.pl = false := by
              simp [isSide]
              omega
            simp [this]
        unfold tableEntry
        rw [hemp]
        rfl
      clear hz
      induction tables with
      | nil => rfl
      | cons t ts ih =>
        rw [List.foldl_cons, hent t (by simp)]
        exact ih (fun t ht => hent t (by simp [ht]))
    · rfl

/-- **C107 (segmentation).** A filtered evaluation, for any filters and in any storage layout, loaded without override, and any filter of the datums
at the computation. If no label that the filter removed has an id below a label that is left, both evaluators give a report. The report of the loaded
one has the same accuracy, the metrics and the cells of the confusion matrix of the labels that are left, unchanged, and none of other labels. Its mean
IoU is the sum of the same values, divided by the number of labels that are left instead of the number of all labels. -/
theorem C107_segmentation_partial {calls : List (List Seg)} {d g p : Option Expr} {t1 t2 : List (List SRow)}
    (h1 : t1.flatten.Perm (Loader.init.addAll calls).rows.flatten) (h2 : t2.flatten.Perm (filterTables d g p t1).flatten)
    (hne : ∃ v, HasLabel t2 v) (hgap : NoGap (Loader.init.addAll calls).labels t2) (q : Option Expr) :
    ∃ R A, (Evaluator.mk t2 (labelsIn t1)).report q = .ok R ∧ (Evaluator.mk t2 (labelsIn t2)).report q = .ok A ∧
      (R.iou.map Metric.label).Perm ((Loader.init.addAll calls).labels.map some) ∧ A.accuracy = R.accuracy ∧
      ∃ kept : List String, kept.Nodup ∧ (∀ v, v ∈ kept ↔ HasLabel t2 v) ∧
        A.precision.Perm (R.precision.filter (fun m => m.label.any (· ∈ kept))) ∧ A.recall.Perm (R.recall.filter (fun m => m.label.any (· ∈ kept))) ∧
        A.f1.Perm (R.f1.filter (fun m => m.label.any (· ∈ kept))) ∧ A.iou.Perm (R.iou.filter (fun m => m.label.any (· ∈ kept))) ∧
        (∃ cm up ug, R.confusionMatrix = [⟨"ConfusionMatrix", .matrix cm up ug, none⟩] ∧ A.confusionMatrix = [⟨"ConfusionMatrix", .matrix
          ((cm.filter (·.1 ∈ kept)).map (fun r => (r.1, r.2.filter (·.1 ∈ kept)))) (up.filter (·.1 ∈ kept)) (ug.filter (·.1 ∈ kept)), none⟩]) ∧
        ∃ x : Rat, R.meanIou = [⟨"mIOU", .number (some (x / (Loader.init.addAll calls).labels.length)), none⟩] ∧
          A.meanIou = [⟨"mIOU", .number (some (x / kept.length)), none⟩] := by
  have hnd := (loaded calls).nodup
  obtain ⟨d1, d2⟩ := C50_segmentation calls h1
  change ((labelsIn t1).map Prod.fst).Nodup at d1
  change ∀ i s, (labelsIn t1).lookup i = some s ↔ _ at d2
  obtain ⟨r1, r2⟩ := reloaded_labels h1 h2
  obtain ⟨K, hpre, hK⟩ := noGap_prefix hnd hgap
  have hKnd : K.Nodup := hpre.sublist.nodup hnd
  have r2' : ∀ (i : Int) (s : String), (labelsIn t2).lookup i = some s ↔ 0 ≤ i ∧ K[i.toNat]? = some s := by
    intro i s
    rw [r2, hK]
  generalize hL : (Loader.init.addAll calls).labels = L at *
  have hlt : ∀ {k : Nat} {v : String}, L[k]? = some v → L.idxOf v = k := by
    intro k v h
    obtain ⟨hk, rfl⟩ := List.getElem?_eq_some_iff.1 h
    exact hnd.idxOf_getElem k hk
  have hmemL : ∀ v, HasLabel t2 v → ∃ k : Nat, L[k]? = some v := by
    rintro v ⟨x, hx, hu⟩
    obtain ⟨q1, q2⟩ := filtered_texts h1 h2 hx
    rw [hL] at q1 q2
    rcases hu with ⟨u1, u2⟩ | ⟨u1, u2⟩
    · rcases q1 with e | ⟨i, w, _, a2, a3⟩
      · exact absurd e u1
      · rw [a3] at u2; cases u2; exact ⟨i, a2⟩
    · rcases q2 with e | ⟨i, w, _, a2, a3⟩
      · exact absurd e u1
      · rw [a3] at u2; cases u2; exact ⟨i, a2⟩
  have hkept : ∀ v, v ∈ K ↔ HasLabel t2 v := by
    intro v
    constructor
    · intro hv
      obtain ⟨i, hi, rfl⟩ := List.getElem_of_mem hv
      exact ((hK i _).1 (List.getElem?_eq_getElem hi)).2
    · intro hv
      obtain ⟨k, hk⟩ := hmemL v hv
      exact List.mem_of_getElem? ((hK k v).2 ⟨hk, hv⟩)
  have hlow : ∀ r ∈ t2.flatten, r.gl < K.length ∧ r.pl < K.length := by
    intro x hx
    obtain ⟨q1, q2⟩ := filtered_texts h1 h2 hx
    rw [hL] at q1 q2
    constructor
    · rcases q1 with e | ⟨i, w, a1, a2, a3⟩
      · omega
      · have := (List.getElem?_eq_some_iff.1 ((hK i w).2 ⟨a2, x, hx, Or.inl ⟨by omega, a3⟩⟩)).1
        omega
    · rcases q2 with e | ⟨i, w, a1, a2, a3⟩
      · omega
      · have := (List.getElem?_eq_some_iff.1 ((hK i w).2 ⟨a2, x, hx, Or.inr ⟨by omega, a3⟩⟩)).1
        omega
  have hlen1 : (labelsIn t1).length = L.length := by
    have := numbered_length d1 d2
    simpa [numbered] using this
  have hlen2 : (labelsIn t2).length = K.length := by
    have := numbered_length r1 r2'
    simpa [numbered] using this
  have hcrop := crop_matrix hpre.length_le q hlow
  have hrep1 := unpack_ok hnd d1 d2 (confusionMatrix L.length q t2)
  have hrep2 := unpack_ok hKnd r1 r2' (confusionMatrix K.length q t2)
  have hKpos : K.length ≠ 0 := by
    obtain ⟨v, hv⟩ := hne
    have := List.length_pos_of_mem ((hkept v).2 hv)
    omega
  have hLpos : L.length ≠ 0 := by have := hpre.length_le; omega
  -- the items of both dictionaries
  have hitems : (labelsIn t2).Perm ((labelsIn t1).filter (fun x => decide (x.2 ∈ K))) := by
    rw [List.perm_ext_iff_of_nodup (List.Nodup.of_map _ r1) ((List.Nodup.of_map _ d1).filter _)]
    rintro ⟨i, s⟩
    rw [List.mem_filter, decide_eq_true_eq]
    constructor
    · intro hx
      obtain ⟨a0, a1, a2⟩ := (r2 i s).1 (lookup_mem r1 hx)
      exact ⟨mem_of_lookup ((d2 i s).2 ⟨a0, a1⟩), (hkept s).2 a2⟩
    · rintro ⟨hx, hs⟩
      obtain ⟨a0, a1⟩ := (d2 i s).1 (lookup_mem d1 hx)
      exact mem_of_lookup ((r2 i s).2 ⟨a0, a1, (hkept s).1 hs⟩)
  have hlist : ∀ (f1 f2 : Nat → Rat) (c : Rat → String → Metric), (∀ x s, (c x s).label = some s) → (∀ i < K.length, f1 i = f2 i) →
      ((labelsIn t2).map (fun x => c (f2 x.1.toNat) x.2)).Perm
        (((labelsIn t1).map (fun x => c (f1 x.1.toNat) x.2)).filter (fun m => m.label.any (· ∈ K))) := by
    intro f1 f2 c hc hf
    rw [List.filter_map]
    have e1 : (labelsIn t2).map (fun x => c (f2 x.1.toNat) x.2) = (labelsIn t2).map (fun x => c (f1 x.1.toNat) x.2) := by
      apply List.map_congr_left
      intro x hx
      obtain ⟨_, a1⟩ := (r2' x.1 x.2).1 (lookup_mem r1 hx)
      rw [hf _ (List.getElem?_eq_some_iff.1 a1).1]
    rw [e1]
    have e2 : ((fun m : Metric => m.label.any (· ∈ K)) ∘ fun x : Int × String => c (f1 x.1.toNat) x.2) = fun x => decide (x.2 ∈ K) := by
      funext x
      simp [hc]
    rw [e2]
    exact hitems.map _
  have hfilter : ∀ (β : Type) (f1 f2 : String → β), (∀ v ∈ K, f1 v = f2 v) →
      (L.map (fun v => (v, f1 v))).filter (fun x => decide (x.1 ∈ K)) = K.map (fun v => (v, f2 v)) := by
    intro β f1 f2 hf
    rw [List.filter_map]
    have e : L.filter ((fun x : String × β => decide (x.1 ∈ K)) ∘ fun v => (v, f1 v)) = K := by
      obtain ⟨w, rfl⟩ := hpre
      rw [List.filter_append]
      have a1 : K.filter ((fun x : String × β => decide (x.1 ∈ K)) ∘ fun v => (v, f1 v)) = K := by
        rw [List.filter_eq_self]
        intro v hv
        simpa using hv
      have a2 : w.filter ((fun x : String × β => decide (x.1 ∈ K)) ∘ fun v => (v, f1 v)) = [] := by
        rw [List.filter_eq_nil_iff]
        intro v hv
        have := (List.nodup_append.1 hnd).2.2
        simp only [Function.comp_apply, decide_eq_true_eq]
        intro hvk
        exact this v hvk v hv rfl
      rw [a1, a2, List.append_nil]
    rw [e]
    apply List.map_congr_left
    intro v hv
    rw [hf v hv]
  have hidx : ∀ v ∈ K, L.idxOf v = K.idxOf v ∧ K.idxOf v < K.length := by
    intro v hv
    obtain ⟨i, hi, rfl⟩ := List.getElem_of_mem hv
    have e := ((hK i _).1 (List.getElem?_eq_getElem hi)).1
    rw [hlt e, hKnd.idxOf_getElem i hi]
    exact ⟨rfl, hi⟩
  refine ⟨_, _, by unfold Evaluator.report; dsimp only; rw [hlen1]; exact hrep1, by unfold Evaluator.report; dsimp only; rw [hlen2]; exact hrep2, ?_, ?_,
    K, hKnd, hkept, ?_, ?_, ?_, ?_, ⟨_, _, _, rfl, ?_⟩, ?_⟩
  · dsimp only
    rw [List.map_map]
    have := numbered_names d1 d2
    have := this.map some
    simpa [numbered, List.map_map, Function.comp_def, Metric.iou] using this
  · dsimp only
    rw [hcrop.accuracy]
  · exact hlist _ _ Metric.precision (fun _ _ => rfl) (fun i hi => hcrop.precision hi)
  · exact hlist _ _ Metric.recall (fun _ _ => rfl) (fun i hi => hcrop.recall hi)
  · exact hlist _ _ Metric.f1Score (fun _ _ => rfl) (fun i hi => hcrop.f1 hi)
  · exact hlist (fun i => iou L.length _ i i) (fun i => iou K.length _ i i) Metric.iou (fun _ _ => rfl) (fun i hi => hcrop.iou hi hi)
  · dsimp only
    unfold Metric.confusionMatrix
    rw [hfilter _ _ (fun b => unmatchedPrediction K.length (confusionMatrix K.length q t2) (K.idxOf b)) (fun v hv => by
        rw [(hidx v hv).1, hcrop.unmatchedPd (hidx v hv).2]),
      hfilter _ _ (fun b => unmatchedGroundtruth K.length (confusionMatrix K.length q t2) (K.idxOf b)) (fun v hv => by
        rw [(hidx v hv).1, hcrop.unmatchedGt (hidx v hv).2]),
      hfilter _ _ _ (fun v hv => rfl), List.map_map]
    congr 3
    apply List.map_congr_left
    intro a ha
    simp only [Function.comp_apply]
    rw [hfilter _ _ (fun b => iou K.length (confusionMatrix K.length q t2) (K.idxOf a) (K.idxOf b)) (fun v hv => by
      rw [(hidx v hv).1, (hidx a ha).1, hcrop.iou (hidx a ha).2 (hidx v hv).2])]
  · dsimp only
    refine ⟨((List.range K.length).map (fun i => iou K.length (confusionMatrix K.length q t2) i i)).sum, ?_, ?_⟩
    · unfold meanIou
      rw [if_neg hLpos, hcrop.ious]
      rfl
    · unfold meanIou
      rw [if_neg hKpos]
      rfl

theorem mapM_error {α β ε : Type} {f : α → Except ε β} {e : ε} {l : List α} (h : ∀ x ∈ l, f x = .error e ∨ ∃ y, f x = .ok y)
    (hx : ∃ x ∈ l, f x = .error e) : l.mapM f = .error e := by
  induction l with
  | nil => obtain ⟨x, hx, _⟩ := hx; cases hx
  | cons a l ih =>
    rw [List.mapM_cons]
    rcases h a (by simp) with ha | ⟨y, ha⟩
    · rw [ha]
      rfl
    · rw [ha]
      obtain ⟨x, hx, he⟩ := hx
      rcases List.mem_cons.1 hx with rfl | hx
      · rw [ha] at he; cases he
      · change ((l.mapM f).bind _) = _
        rw [ih (fun x hx => h x (by simp [hx])) ⟨x, hx, he⟩]
        rfl

theorem comprehension_error {β : Type} {labels : List (Int × String)} {n : Nat} (h : ∃ k : Nat, k < n ∧ labels.lookup (k : Int) = none)
    {f : Nat → Except RepErr β} (hf : ∀ k, f k = .error .keyError ∨ ∃ y, f k = .ok y) : comprehension labels n f = .error .keyError := by
  unfold comprehension
  rw [mapM_error (e := RepErr.keyError)]
  · rfl
  · intro k _
    unfold labelOf
    split
    · rcases hf k with e | ⟨y, e⟩
      · rw [e]; exact Or.inl rfl
      · rw [e]; exact Or.inr ⟨_, rfl⟩
    · exact Or.inl rfl
  · obtain ⟨k, hk, he⟩ := h
    refine ⟨k, List.mem_range.2 hk, ?_⟩
    unfold labelOf
    rw [he]
    rfl

/-- **C107 (segmentation, gap).** If some label that the filter removed has an id below a label that is left, the evaluator that `load` returns has no
report: the confusion matrix asks for a name that the labels do not have. -/
theorem C107_segmentation_gap {calls : List (List Seg)} {d g p : Option Expr} {t1 t2 : List (List SRow)}
    (h1 : t1.flatten.Perm (Loader.init.addAll calls).rows.flatten) (h2 : t2.flatten.Perm (filterTables d g p t1).flatten)
    (hgap : ¬ NoGap (Loader.init.addAll calls).labels t2) (q : Option Expr) :
    (Evaluator.mk t2 (labelsIn t2)).report q = .error .keyError := by
  obtain ⟨r1, r2⟩ := reloaded_labels h1 h2
  have hnd := (loaded calls).nodup
  generalize hL : (Loader.init.addAll calls).labels = L at *
  unfold NoGap at hgap
  push Not at hgap
  obtain ⟨o, ho, v, hv, hlt, hhv, hho⟩ := hgap
  have hget : ∀ v ∈ L, L[L.idxOf v]? = some v := by
    intro v hv
    rw [List.getElem?_eq_getElem (List.idxOf_lt_length_of_mem hv)]
    simp
  have hex : ∃ k : Nat, k < (labelsIn t2).length ∧ (labelsIn t2).lookup (k : Int) = none := by
    by_contra hall
    push Not at hall
    have hsub : ((List.range (labelsIn t2).length).map Int.ofNat).Subperm ((labelsIn t2).map Prod.fst) := by
      apply List.Nodup.subperm
      · exact List.nodup_range.map (fun a b e => Int.ofNat.inj e)
      · intro i hi
        obtain ⟨k, hk, rfl⟩ := List.mem_map.1 hi
        obtain ⟨s, hs⟩ := Option.ne_none_iff_exists'.1 (hall k (List.mem_range.1 hk))
        exact List.mem_map.2 ⟨_, mem_of_lookup hs, rfl⟩
    have hperm := hsub.perm_of_length_le (by simp)
    have hvm : (labelsIn t2).lookup (L.idxOf v : Int) = some v := (r2 _ _).2 ⟨by omega, by simpa using hget v hv, hhv⟩
    have hvk := hperm.mem_iff.2 (List.mem_map.2 ⟨_, mem_of_lookup hvm, rfl⟩)
    obtain ⟨k, hk, hke⟩ := List.mem_map.1 hvk
    have hk := List.mem_range.1 hk
    have hke : (k : Int) = (L.idxOf v : Int) := hke
    obtain ⟨s, hs⟩ := Option.ne_none_iff_exists'.1 (hall (L.idxOf o) (by omega))
    obtain ⟨_, a1, a2⟩ := (r2 _ _).1 hs
    rw [Int.toNat_natCast, hget o ho] at a1
    cases a1
    exact hho a2
  unfold Evaluator.report unpackReport
  dsimp only
  rw [comprehension_error hex (fun k => Or.inl (comprehension_error hex (fun k => Or.inr ⟨_, rfl⟩)))]
  rfl

/-- The rows of `sampleCalls` without the label `z`. -/
def withoutZ : List (List SRow) :=
  filterTables none (some fun r => decide (r.gtLabel ≠ some "z")) (some fun r => decide (r.pdLabel ≠ some "z")) [(Loader.init.addAll sampleCalls).rows.flatten]

instance (tables : List (List SRow)) (v : String) : Decidable (HasLabel tables v) := by unfold HasLabel; infer_instance

instance (L : List String) (tables : List (List SRow)) : Decidable (NoGap L tables) := by unfold NoGap; infer_instance

/-- **C107 (segmentation, missing labels), violation.** The filter removes the label `z`. The evaluator that `filter` returns and the one that `load`
reads from the same cache give different mean IoUs, and `z` is missing from the second report. -/
theorem C107_segmentation_missing_violation :
    ∃ R A, (Evaluator.mk withoutZ (labelsIn [(Loader.init.addAll sampleCalls).rows.flatten])).report none = .ok R ∧
      (Evaluator.mk withoutZ (labelsIn withoutZ)).report none = .ok A ∧
      R.meanIou = [⟨"mIOU", .number (some (1/6)), none⟩] ∧ A.meanIou = [⟨"mIOU", .number (some (1/4)), none⟩] ∧
      R.iou.map Metric.label = [some "x", some "y", some "z"] ∧ A.iou.map Metric.label = [some "x", some "y"] := by
  refine ⟨_, _, rfl, rfl, ?_⟩
  decide +kernel

/-- The hypotheses of `C107_segmentation_partial`: two of three labels are left. -/
example : withoutZ.flatten.Perm (filterTables none (some fun r => decide (r.gtLabel ≠ some "z")) (some fun r => decide (r.pdLabel ≠ some "z"))
      [(Loader.init.addAll sampleCalls).rows.flatten]).flatten ∧
    [(Loader.init.addAll sampleCalls).rows.flatten].flatten.Perm (Loader.init.addAll sampleCalls).rows.flatten ∧
    HasLabel withoutZ "y" ∧ ¬ HasLabel withoutZ "z" ∧ NoGap (Loader.init.addAll sampleCalls).labels withoutZ :=
  ⟨List.Perm.refl _, by simp, by decide +kernel, by decide +kernel, by decide +kernel⟩

/-- The hypotheses of `C107_segmentation_gap`: the first label of the sample is removed. -/
example :
    let t := filterTables none (some fun r => decide (r.gtLabel ≠ some "x")) (some fun r => decide (r.pdLabel ≠ some "x"))
      [(Loader.init.addAll sampleCalls).rows.flatten]
    ¬ NoGap (Loader.init.addAll sampleCalls).labels t ∧ (Evaluator.mk t (labelsIn t)).report none = .error .keyError := by
  decide +kernel

end Verif.Segmentation
