import Verif.Detection.ReportLemmas
import Verif.Detection.CmProps

/-! # C60: the precision-recall report -/

namespace Verif.Detection

open Verif.Classification (unique)

/-- The rows of label `l` that are correct at IoU threshold `t` (before the score threshold). -/
def correctRows (t : Rat) (l : Int) (rows : List RRow) : Nat :=
  ((rows.filter (fun r => decide (r.row.pl = l))).map (tpOuter t)).count true

theorem correctRows_append (t : Rat) (l : Int) (a b : List RRow) : correctRows t l (a ++ b) = correctRows t l a + correctRows t l b := by
  unfold correctRows
  rw [List.filter_append, List.map_append, List.count_append]

theorem curve_tp (t : Rat) (n : Nat) (l : Int) (chunks : List (List RRow)) :
    (curveOf t n l chunks).tp = correctRows t l chunks.flatten := by
  have h : ∀ c : Curve, (chunks.foldl (curveStep t n l) c).tp = c.tp + correctRows t l chunks.flatten := by
    induction chunks with
    | nil => intro c; simp [correctRows]
    | cons a cs ih =>
      intro c
      rw [List.foldl_cons, ih, List.flatten_cons, correctRows_append]
      unfold curveStep
      dsimp only
      rw [(points_fill t n _ c.total c.tp).2]
      dsimp only
      unfold correctRows
      omega
  have := h Curve.init
  unfold curveOf
  rw [this]
  simp [Curve.init]

theorem curveOf_snoc (t : Rat) (n : Nat) (l : Int) (done : List (List RRow)) (c : List RRow) :
    curveOf t n l (done ++ [c]) = curveStep t n l (curveOf t n l done) c := by
  unfold curveOf
  rw [List.foldl_append, List.foldl_cons, List.foldl_nil]

/-- The arrays agree with the single-threshold model after the tables `done`. -/
structure ArraysMatch (n : Int → Nat) (ious scores : List Rat) (a : Arrays) (done : List (List RRow)) : Prop where
  tp : ∀ i, i < ious.length → ∀ j, j < scores.length → ∀ l, a.tp i j l = tpTotal (ious.getD i 0) (scores.getD j 0) done l
  fp : ∀ i, i < ious.length → ∀ j, j < scores.length → ∀ l, a.fp i j l = fpTotal (ious.getD i 0) (scores.getD j 0) done l
  run : ∀ i, i < ious.length → ∀ l, a.run i l = ((curveOf (ious.getD i 0) (n l) l done).total, (curveOf (ious.getD i 0) (n l) l done).tp)
  prec : ∀ i, i < ious.length → ∀ l, a.curve.prec i l = (curveOf (ious.getD i 0) (n l) l done).prec
  score : ∀ i, i < ious.length → ∀ l, a.curve.score i l = (curveOf (ious.getD i 0) (n l) l done).score

theorem arraysMatch_zero (n : Int → Nat) (ious scores : List Rat) : ArraysMatch n ious scores Arrays.zero [] :=
  ⟨fun _ _ _ _ _ => rfl, fun _ _ _ _ _ => rfl, fun _ _ _ => rfl, fun _ _ _ => rfl, fun _ _ _ => rfl⟩

theorem tpTotal_snoc (t s : Rat) (done : List (List RRow)) (c : List RRow) (l : Int) :
    tpTotal t s (done ++ [c]) l = tpTotal t s done l + tpCount t s c l := by
  unfold tpTotal; simp

theorem fpTotal_snoc (t s : Rat) (done : List (List RRow)) (c : List RRow) (l : Int) :
    fpTotal t s (done ++ [c]) l = fpTotal t s done l + fpCount t s c l := by
  unfold fpTotal; simp

/-- No recall bin is above 100. -/
theorem bins_ok {rows : List RRow} {t : Rat} {scores : List Rat} {run0 : Int → Nat × Nat} {tp fp : Nat → Int → Nat}
    {run : Int → Nat × Nat} {total tps : List Nat} (h : Slot rows t scores run0 tp fp run total tps) (n : Int → Nat)
    (hn : ∀ l, (run0 l).2 + correctRows t l rows ≤ n l) : ∀ k ∈ rowKeys rows n tps, k.2 ≤ 100 := by
  rintro ⟨l, b⟩ hk
  obtain ⟨i, hi, hik⟩ := List.getElem_of_mem hk
  have hlen := rowKeys_length rows n tps h.len2
  have hmem : ((l, b), (rows.map (fun r => r.row.score))[i]'(by rw [List.length_map]; omega)) ∈
      (rowKeys rows n tps).zip (rows.map (fun r => r.row.score)) := by
    rw [List.mem_iff_getElem]
    refine ⟨i, by rw [List.length_zip, List.length_map]; omega, ?_⟩
    rw [List.getElem_zip, hik]
  have hsome : (((rowKeys rows n tps).zip (rows.map (fun r => r.row.score))).find? (fun x => decide (x.1 = (l, b)))).isSome := by
    rw [List.find?_isSome]
    exact ⟨_, hmem, by simp⟩
  rw [find_score rows n tps total h.len2 h.len1, Option.isSome_map, List.find?_isSome] at hsome
  obtain ⟨p, hp, hb⟩ := hsome
  have hpts := congrArg Prod.fst (h.points (n l) l)
  dsimp only at hpts
  rw [← hpts, mem_points] at hp
  obtain ⟨k, hk', rfl⟩ := hp
  rw [decide_eq_true_eq] at hb
  dsimp only at hb ⊢
  rw [← hb]
  apply bin_le
  split
  · have := hits_le_count ((rows.filter (fun r => decide (r.row.pl = l))).map (tpOuter t)) (k + 1)
    have h2 := hn l
    unfold correctRows at h2
    omega
  · omega

theorem addCounts_ok {n : Int → Nat} {nLabels : Nat} {order : List Rat → List Nat} (ho : IsArgsort order) {ious scores : List Rat}
    {a : Arrays} {done : List (List RRow)} (hm : ArraysMatch n ious scores a done) {rows : List RRow}
    (hl : ∀ r ∈ rows, 0 ≤ r.row.pl ∧ r.row.pl < (nLabels : Int))
    (hn : ∀ t ∈ ious, ∀ l, correctRows t l (done ++ [rows]).flatten ≤ n l) :
    ∃ a', addCounts n nLabels order ious scores a rows = .ok a' ∧ ArraysMatch n ious scores a' (done ++ [rows]) := by
  unfold addCounts
  rw [if_neg (by
    rw [Bool.not_eq_true, List.any_eq_false]
    intro r hr
    have := hl r hr
    simp [this.1, this.2])]
  dsimp only
  obtain ⟨g1, _⟩ := iouLoop_eq rows ious scores
    ⟨fun _ _ _ => 0, fun _ _ _ => 0, a.run, fun _ => List.replicate rows.length 0, fun _ => List.replicate rows.length 0⟩
    (fun _ => rfl) (fun _ => rfl) ious.length
  generalize (List.range ious.length).foldl (iouBody rows ious scores)
    ⟨fun _ _ _ => 0, fun _ _ _ => 0, a.run, fun _ => List.replicate rows.length 0, fun _ => List.replicate rows.length 0⟩ = st at *
  dsimp only at g1
  have hget : ∀ i, i < ious.length → ious.getD i 0 ∈ ious := by
    intro i hi
    rw [List.getD_eq_getElem?_getD, List.getElem?_eq_getElem hi, Option.getD_some]
    exact List.getElem_mem hi
  rw [if_neg (by
    rw [Bool.not_eq_true, List.any_eq_false]
    intro i hi
    rw [List.mem_range] at hi
    rw [Bool.not_eq_true, List.any_eq_false]
    intro k hk
    have := bins_ok (g1 i hi) n (fun l => by
      have h1 := hn _ (hget i hi) l
      rw [List.flatten_append, correctRows_append] at h1
      rw [hm.run i hi l]
      dsimp only
      rw [curve_tp]
      simpa using h1) k hk
    simp only [gt_iff_lt, decide_eq_true_eq]
    omega)]
  refine ⟨_, rfl, ?_⟩
  obtain ⟨c1, _⟩ := curveLoop_eq rows n order st a.curve ious.length
  generalize (List.range ious.length).foldl (curveBody rows n order st) a.curve = cv at *
  have hcurve : ∀ i, i < ious.length → ∀ l, (⟨(a.run i l).1, (a.run i l).2, a.curve.prec i l, a.curve.score i l⟩ : Curve)
      = curveOf (ious.getD i 0) (n l) l done := by
    intro i hi l
    rw [hm.run i hi l, hm.prec i hi l, hm.score i hi l]
  refine ⟨?_, ?_, ?_, ?_, ?_⟩
  · intro i hi j hj l
    dsimp only
    rw [tpTotal_snoc, hm.tp i hi j hj l, (g1 i hi).tp j hj]
  · intro i hi j hj l
    dsimp only
    rw [fpTotal_snoc, hm.fp i hi j hj l, (g1 i hi).fp j hj]
  · intro i hi l
    have := (curveBody_eq (g1 i hi) ho n a.curve l).2.2
    rw [hcurve i hi l, ← curveOf_snoc] at this
    exact this
  · intro i hi l
    have := (curveBody_eq (g1 i hi) ho n a.curve l).1
    rw [hcurve i hi l, ← curveOf_snoc] at this
    dsimp only
    rw [(c1 i hi).1]
    exact this
  · intro i hi l
    have := (curveBody_eq (g1 i hi) ho n a.curve l).2.1
    rw [hcurve i hi l, ← curveOf_snoc] at this
    dsimp only
    rw [(c1 i hi).2]
    exact this

theorem arraysMatch_empty {n : Int → Nat} {ious scores : List Rat} {a : Arrays} {done : List (List RRow)}
    (hm : ArraysMatch n ious scores a done) : ArraysMatch n ious scores a (done ++ [[]]) := by
  have hc : ∀ t l, curveOf t (n l) l (done ++ [[]]) = curveOf t (n l) l done := by
    intro t l
    rw [curveOf_snoc]
    unfold curveStep
    simp only [List.filter_nil, points]
    rfl
  refine ⟨?_, ?_, ?_, ?_, ?_⟩
  · intro i hi j hj l
    rw [tpTotal_snoc, hm.tp i hi j hj l]; rfl
  · intro i hi j hj l
    rw [fpTotal_snoc, hm.fp i hi j hj l]; rfl
  · intro i hi l; rw [hc]; exact hm.run i hi l
  · intro i hi l; rw [hc]; exact hm.prec i hi l
  · intro i hi l; rw [hc]; exact hm.score i hi l

theorem accumulate_ok {n : Int → Nat} {nLabels : Nat} {order : List Rat → List Nat} (ho : IsArgsort order) {ious scores : List Rat}
    {chunks : List (List RRow)} (hl : ∀ r ∈ chunks.flatten, 0 ≤ r.row.pl ∧ r.row.pl < (nLabels : Int))
    (hn : ∀ t ∈ ious, ∀ l, correctRows t l chunks.flatten ≤ n l) :
    ∃ a, accumulate n nLabels order ious scores chunks = .ok a ∧ ArraysMatch n ious scores a chunks := by
  have h : ∀ (rest : List (List RRow)) (done : List (List RRow)) (a : Arrays), ArraysMatch n ious scores a done → chunks = done ++ rest →
      ∃ a', rest.foldlM (fun a rows => if rows.isEmpty then .ok a else addCounts n nLabels order ious scores a rows) a = Except.ok a' ∧
        ArraysMatch n ious scores a' chunks := by
    intro rest
    induction rest with
    | nil =>
      intro done a hm he
      rw [List.append_nil] at he
      exact ⟨a, rfl, he ▸ hm⟩
    | cons c cs ih =>
      intro done a hm he
      have he' : chunks = (done ++ [c]) ++ cs := by rw [he]; simp
      rw [List.foldlM_cons]
      by_cases hc : c.isEmpty
      · rw [if_pos hc]
        have : c = [] := List.isEmpty_iff.1 hc
        subst this
        exact ih _ a (arraysMatch_empty hm) he'
      · rw [if_neg hc]
        obtain ⟨a', h1, h2⟩ := addCounts_ok (nLabels := nLabels) ho hm (rows := c)
          (fun r hr => hl r (by rw [he]; simp [hr]))
          (fun t ht l => by
            have := hn t ht l
            rw [he', List.flatten_append, correctRows_append] at this
            omega)
        rw [h1]
        exact ih _ a' h2 he'
  exact h chunks [] Arrays.zero (arraysMatch_zero n ious scores) rfl

/-! ## Specification -/

/-- Recall of a label at one pair of thresholds. -/
def recallAt (tables : List (List Row)) (chunks : List (List RRow)) (t s : Rat) (l : Int) : Rat :=
  recall (tpTotal t s chunks l) (gtCount tables l)

/-- Precision of a label at one pair of thresholds. -/
def precisionOf (chunks : List (List RRow)) (t s : Rat) (l : Int) : Rat :=
  precision (tpTotal t s chunks l) (fpTotal t s chunks l)

/-- Average precision of a label at one IoU threshold. -/
def apAt (tables : List (List Row)) (chunks : List (List RRow)) (t : Rat) (l : Int) : Rat :=
  averagePrecision (curveOf t (gtCount tables l) l chunks).prec

/-- The report that is expected: for each threshold, or pair of thresholds, and each label one metric with
the value for these thresholds alone; the aggregated metrics are plain means. -/
def expectedReport (tables : List (List Row)) (chunks : List (List RRow)) (labels : List (Nat × String)) (ious scores : List Rat) : Report :=
  let per := fun (f : Rat → Rat → Int → String → DMetric) =>
    labels.flatMap (fun lb => scores.flatMap (fun s => ious.map (fun t => f t s (lb.1 : Int) lb.2)))
  let ids := labels.map (fun lb => (lb.1 : Int))
  let ap := apAt tables chunks
  let rc := recallAt tables chunks
  { ap := ious.flatMap (fun t => labels.map (fun lb => .ap (some (ap t (lb.1 : Int))) t lb.2))
    mAP := ious.map (fun t => .mAP (some (mean (ids.map (ap t)))) t)
    apOverIous := labels.map (fun lb => .apOverIous (some (mean (ious.map (fun t => ap t (lb.1 : Int))))) ious lb.2)
    mAPOverIous := [.mAPOverIous (some (mean (ious.map (fun t => mean (ids.map (ap t)))))) ious]
    ar := scores.flatMap (fun s => labels.map (fun lb => .ar (some (mean (ious.map (fun t => rc t s (lb.1 : Int))))) ious s lb.2))
    mAR := scores.map (fun s => .mAR (some (mean (ids.map (fun l => mean (ious.map (fun t => rc t s l)))))) ious s)
    arOverScores := labels.map (fun lb => .arOverScores
      (some (mean (scores.map (fun s => mean (ious.map (fun t => rc t s (lb.1 : Int))))))) scores ious lb.2)
    mAROverScores := [.mAROverScores
      (some (mean (scores.map (fun s => mean (ids.map (fun l => mean (ious.map (fun t => rc t s l)))))))) scores ious]
    prCurve := ious.flatMap (fun t => labels.map (fun lb => .prCurve (interpolated (curveOf t (gtCount tables (lb.1 : Int)) (lb.1 : Int) chunks).prec)
      (interpolated (curveOf t (gtCount tables (lb.1 : Int)) (lb.1 : Int) chunks).score) t lb.2))
    counts := per (fun t s l label => .counts (tpTotal t s chunks l) (fpTotal t s chunks l) (gtCount tables l - tpTotal t s chunks l) label t s)
    precision := per (fun t s l label => .precision (precisionOf chunks t s l) label t s)
    recall := per (fun t s l label => .recall (rc t s l) label t s)
    f1 := per (fun t s l label => .f1 (f1 (precisionOf chunks t s l) (rc t s l)) label t s) }

/-! ## Lemmas -/

theorem correctRows_le {tables : List (List Row)} (hc : CacheOk tables) {out : List RRow} (h : RankedOf tables out)
    (t : Rat) (l : Int) : correctRows t l out ≤ gtCount tables l := by
  by_cases ht : 0 < t
  · have hb := C28_bound hc h t EPSILON l [out] (by simp)
    rw [tpTotal_eq hc h ht EPSILON l [out] (by simp)] at hb
    refine le_trans (le_of_eq ?_) hb
    unfold correctRows
    rw [List.count, List.countP_map, List.countP_filter, List.countP_eq_length_filter]
    congr 1
    apply List.filter_congr
    intro r hr
    obtain ⟨_, h2, h3⟩ := ranked_pd hc h hr
    rw [Bool.eq_iff_iff]
    simp only [Function.comp_apply, Bool.and_eq_true, beq_iff_eq, decide_eq_true_eq, tpOuter_iff h3 h2, tpInner_iff h3 h2]
    constructor
    · rintro ⟨⟨h1, h2⟩, h3⟩; exact ⟨h3, h1, h2.le, h2⟩
    · rintro ⟨h1, h2, _, h3⟩; exact ⟨⟨h2, h3⟩, h1⟩
  · have : correctRows t l out = 0 := by
      unfold correctRows
      rw [List.count_eq_zero]
      intro hm
      obtain ⟨r, hr, hrt⟩ := List.mem_map.1 hm
      have hro := (List.mem_filter.1 hr).1
      obtain ⟨_, h2, h3⟩ := ranked_pd hc h hro
      obtain ⟨tbl, htbl, hrt'⟩ := mem_merged h hro
      exact C27_zero_threshold tbl (fun x hx => (hc.iou tbl htbl x hx).1) hrt' (not_lt.1 ht) ((tpOuter_iff h3 h2 t).1 hrt).1
    omega

theorem npMean_some {l : List Rat} (h : l ≠ []) : npMean (l.map some) = some (mean l) := by
  have hm : ∀ l : List Rat, (l.map some).mapM id = some l := by
    intro l
    induction l with
    | nil => rfl
    | cons x l ih => rw [List.map_cons, List.mapM_cons, ih]; rfl
  unfold npMean
  rw [if_neg (by simpa using h), hm]
  rfl

theorem enum_eq {α β : Type} (l : List α) (d : α) (f : Nat → α → β) (g : α → β)
    (h : ∀ i, i < l.length → f i (l.getD i d) = g (l.getD i d)) : enum l f = l.map g := by
  unfold enum
  apply List.ext_getElem
  · simp
  · intro i h1 h2
    have hi : i < l.length := by simpa using h2
    rw [List.getElem_mapIdx, List.getElem_map]
    have := h i hi
    rw [List.getD_eq_getElem?_getD, List.getElem?_eq_getElem hi, Option.getD_some] at this
    exact this

theorem range_map {β : Type} (l : List Rat) (f : Nat → β) (g : Rat → β) (h : ∀ i, i < l.length → f i = g (l.getD i 0)) :
    (List.range l.length).map f = l.map g := by
  apply List.ext_getElem
  · simp
  · intro i h1 h2
    have hi : i < l.length := by simpa using h2
    rw [List.getElem_map, List.getElem_range, List.getElem_map, h i hi, List.getD_eq_getElem?_getD, List.getElem?_eq_getElem hi,
      Option.getD_some]

theorem mean_perm {l m : List Rat} (h : l.Perm m) : mean l = mean m := by
  unfold mean
  rw [h.sum_eq, h.length_eq]

theorem mean_labels {labels : List (Nat × String)} (hk : (labels.map Prod.fst).Perm (List.range labels.length)) (f : Int → Rat) :
    mean ((List.range labels.length).map (fun (l : Nat) => f (l : Int))) = mean ((labels.map (fun lb => (lb.1 : Int))).map f) := by
  have h := hk.map (fun (l : Nat) => f (l : Int))
  rw [List.map_map] at h
  rw [List.map_map]
  exact (mean_perm h).symm

/-- The report of tables and ranked chunks whose rows have labels in range and whose correct rows do not outnumber the ground truths. -/
theorem report_general {tables : List (List Row)} {chunks : List (List RRow)} {order : List Rat → List Nat} (ho : IsArgsort order)
    {labels : List (Nat × String)} (hne : labels ≠ []) (hk : (labels.map Prod.fst).Perm (List.range labels.length))
    (hlab : LabelsBelow labels.length tables.flatten) (hsize : ∀ l, gtCount tables l < 2 ^ 64)
    (hL : ∀ r ∈ chunks.flatten, 0 ≤ r.row.pl ∧ r.row.pl < (labels.length : Int))
    (hcorr : ∀ t l, correctRows t l chunks.flatten ≤ gtCount tables l) (htp : ∀ t s l, tpTotal t s chunks l ≤ gtCount tables l)
    {ious scores : List Rat} (hi : ious ≠ []) (hs : scores ≠ []) :
    computePrecisionRecall order labels tables chunks ious scores = .ok (expectedReport tables chunks labels ious scores) := by
  obtain ⟨a, ha, hm⟩ := accumulate_ok (n := gtCount tables) (ious := ious) (scores := scores) ho hL
    (fun t _ l => hcorr t l)
  have hkey : ∀ lb ∈ labels, lb.1 < labels.length := by
    intro lb hlb
    have := hk.mem_iff.1 (List.mem_map_of_mem (f := Prod.fst) hlb)
    exact List.mem_range.1 this
  unfold computePrecisionRecall
  rw [if_neg (by simpa using hi), if_neg (by simpa using hs), if_neg (by
    rw [Bool.not_eq_true, List.any_eq_false]
    intro r hr
    simp only [ge_iff_le, Bool.and_eq_true, Bool.or_eq_true, decide_eq_true_eq, not_and, not_or, not_lt, not_le]
    exact (hlab r hr).1), ha]
  change (if labels.any (fun lb => decide (lb.1 ≥ labels.length)) then Except.error MErr.indexError else _) = _
  rw [if_neg (by
    rw [Bool.not_eq_true, List.any_eq_false]
    intro lb hlb
    have := hkey lb hlb
    simp only [ge_iff_le, decide_eq_true_eq]
    omega)]
  congr 1
  -- the values of the summary
  have vtp : ∀ i, i < ious.length → ∀ j, j < scores.length → ∀ l, a.tp i j l = tpTotal (ious.getD i 0) (scores.getD j 0) chunks l := hm.tp
  have vfp : ∀ i, i < ious.length → ∀ j, j < scores.length → ∀ l, a.fp i j l = fpTotal (ious.getD i 0) (scores.getD j 0) chunks l := hm.fp
  have vfn : ∀ i, i < ious.length → ∀ j, j < scores.length → ∀ l, (gtCount tables l + 2 ^ 64 - a.tp i j l) % 2 ^ 64
      = gtCount tables l - tpTotal (ious.getD i 0) (scores.getD j 0) chunks l := by
    intro i hi' j hj l
    have h1 := htp (ious.getD i 0) (scores.getD j 0) l
    have h2 := hsize l
    rw [vtp i hi' j hj l]
    omega
  have vap : ∀ i, i < ious.length → ∀ l, averagePrecision (a.curve.prec i l) = apAt tables chunks (ious.getD i 0) l := by
    intro i hi' l
    rw [hm.prec i hi' l]
    rfl
  have vrc : ∀ i, i < ious.length → ∀ j, j < scores.length → ∀ l, recall (a.tp i j l) (gtCount tables l)
      = recallAt tables chunks (ious.getD i 0) (scores.getD j 0) l := by
    intro i hi' j hj l
    rw [vtp i hi' j hj l]
    rfl
  have vpr : ∀ i, i < ious.length → ∀ j, j < scores.length → ∀ l, precision (a.tp i j l) (a.fp i j l)
      = precisionOf chunks (ious.getD i 0) (scores.getD j 0) l := by
    intro i hi' j hj l
    rw [vtp i hi' j hj l, vfp i hi' j hj l]
    rfl
  have hpos : ious.length * labels.length > 0 :=
    Nat.mul_pos (List.length_pos_iff.2 hi) (List.length_pos_iff.2 hne)
  have vmap : ∀ i, i < ious.length → npMean ((List.range labels.length).map (fun (l : Nat) => some (averagePrecision (a.curve.prec i (l : Int)))))
      = some (mean ((labels.map (fun lb => (lb.1 : Int))).map (apAt tables chunks (ious.getD i 0)))) := by
    intro i hi'
    rw [← mean_labels hk, ← npMean_some (by simpa using hne), List.map_map]
    congr 1
    apply List.map_congr_left
    intro l _
    rw [vap i hi']
    rfl
  have var : ∀ j, j < scores.length → ∀ l, npMean ((List.range ious.length).map (fun i => some (recall (a.tp i j l) (gtCount tables l))))
      = some (mean (ious.map (fun t => recallAt tables chunks t (scores.getD j 0) l))) := by
    intro j hj l
    rw [← npMean_some (by simpa using hi), List.map_map]
    congr 1
    apply range_map
    intro i hi'
    rw [vrc i hi' j hj l]
    rfl
  have vmar : ∀ j, j < scores.length → npMean ((List.range labels.length).map (fun (l : Nat) =>
      npMean ((List.range ious.length).map (fun i => some (recall (a.tp i j (l : Int)) (gtCount tables (l : Int)))))))
      = some (mean ((labels.map (fun lb => (lb.1 : Int))).map (fun l => mean (ious.map (fun t => recallAt tables chunks t (scores.getD j 0) l))))) := by
    intro j hj
    rw [← mean_labels hk, ← npMean_some (by simpa using hne), List.map_map]
    congr 1
    apply List.map_congr_left
    intro l _
    rw [var j hj]
    rfl
  have hper : ∀ (f : Nat → Nat → Nat × String → Rat → Rat → DMetric) (g : Rat → Rat → Nat × String → DMetric),
      (∀ i, i < ious.length → ∀ j, j < scores.length → ∀ lb, f i j lb (ious.getD i 0) (scores.getD j 0) = g (ious.getD i 0) (scores.getD j 0) lb) →
      (labels.map (fun lb => (enum scores (fun j sc => enum ious (fun i t => f i j lb t sc))).flatten)).flatten
        = labels.flatMap (fun lb => scores.flatMap (fun s => ious.map (fun t => g t s lb))) := by
    intro f g hfg
    rw [List.flatMap_def]
    congr 1
    apply List.map_congr_left
    intro lb _
    rw [List.flatMap_def]
    congr 1
    apply enum_eq scores 0
    intro j hj
    apply enum_eq ious 0
    intro i hi'
    exact hfg i hi' j hj _
  unfold unpackMetrics expectedReport summarize
  simp only [Report.mk.injEq]
  refine ⟨?_, ?_, ?_, ?_, ?_, ?_, ?_, ?_, ?_, ?_, ?_, ?_, ?_⟩
  · rw [List.flatMap_def]
    congr 1
    apply enum_eq ious 0
    intro i hi'
    apply List.map_congr_left
    intro lb _
    rw [vap i hi']
  · apply enum_eq ious 0
    intro i hi'
    rw [if_pos hpos, vmap i hi']
  · apply List.map_congr_left
    intro lb _
    congr 1
    rw [← npMean_some (by simpa using hi), List.map_map]
    congr 1
    apply range_map
    intro i hi'
    rw [vap i hi']
    rfl
  · congr 2
    rw [← npMean_some (by simpa using hi), List.map_map]
    congr 1
    apply range_map
    intro i hi'
    rw [if_pos hpos, vmap i hi']
    rfl
  · rw [List.flatMap_def]
    congr 1
    apply enum_eq scores 0
    intro j hj
    apply List.map_congr_left
    intro lb _
    rw [var j hj]
  · apply enum_eq scores 0
    intro j hj
    rw [vmar j hj]
  · apply List.map_congr_left
    intro lb _
    congr 1
    rw [← npMean_some (by simpa using hs), List.map_map]
    congr 1
    apply range_map
    intro j hj
    rw [var j hj]
    rfl
  · congr 2
    rw [← npMean_some (by simpa using hs), List.map_map]
    congr 1
    apply range_map
    intro j hj
    rw [vmar j hj]
    rfl
  · rw [List.flatMap_def]
    congr 1
    apply enum_eq ious 0
    intro i hi'
    apply List.map_congr_left
    intro lb _
    rw [hm.prec i hi', hm.score i hi']
  · refine hper (fun i j lb t sc => _) (fun t s lb => _) ?_
    intro i hi' j hj lb
    rw [vtp i hi' j hj, vfp i hi' j hj, ← vfn i hi' j hj, vtp i hi' j hj]
  · refine hper (fun i j lb t sc => _) (fun t s lb => _) ?_
    intro i hi' j hj lb
    rw [vpr i hi' j hj]
  · refine hper (fun i j lb t sc => _) (fun t s lb => _) ?_
    intro i hi' j hj lb
    rw [vrc i hi' j hj]
  · refine hper (fun i j lb t sc => _) (fun t s lb => _) ?_
    intro i hi' j hj lb
    rw [vpr i hi' j hj, vrc i hi' j hj]

/-- **C60 (report).** For every cache, every division of the ranked cache into tables and every list of
thresholds, `compute_precision_recall` succeeds and returns exactly the expected report: the entry of a
threshold is not influenced by the other thresholds in the list, and the aggregates are the means. The
label numbering is complete (it is for every cache the loader wrote, C50). -/
theorem C60_report {tables : List (List Row)} (hc : CacheOk tables) {out : List RRow} (h : RankedOf tables out)
    {chunks : List (List RRow)} (hch : chunks.flatten = out) {order : List Rat → List Nat} (ho : IsArgsort order)
    {labels : List (Nat × String)} (hne : labels ≠ []) (hk : (labels.map Prod.fst).Perm (List.range labels.length))
    (hlab : LabelsBelow labels.length tables.flatten) (hsize : ∀ l, gtCount tables l < 2 ^ 64)
    {ious scores : List Rat} (hi : ious ≠ []) (hs : scores ≠ []) :
    computePrecisionRecall order labels tables chunks ious scores = .ok (expectedReport tables chunks labels ious scores) := by
  apply report_general ho hne hk hlab hsize _ (fun t l => by rw [hch]; exact correctRows_le hc h t l)
    (fun t s l => C28_bound hc h t s l chunks hch) hi hs
  intro r hr
  rw [hch] at hr
  obtain ⟨h1, h2, _⟩ := ranked_pd hc h hr
  exact (hlab r.row h1).2 h2

end Verif.Detection
