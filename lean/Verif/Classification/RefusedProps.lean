import Verif.Classification.ReportProps

/-!
# C99 (classification): classifications that the cache refuses

`add_data` raises when a classification has no prediction, or when pyarrow does not accept its rows, for example because a metadata value is
not of the declared type. A caller may catch the exception and carry on with the next classification.
-/

namespace Verif.Classification

open Verif.Shared

/-- `add_data([c])` (`classification/loader.py` 39-97) when the writer may refuse the rows: `fits` says whether
`RecordBatch.from_pylist(rows, schema=..)` succeeds (`cache/ephemeral.py` 190, `cache/persistent.py` 393). The second component says
whether the call raised. A refusal comes after the labels have been added and before the rows are written and the datum is counted. -/
def Loader.offer (s : Loader) (c : Classif) (fits : Bool) : Loader × Bool :=
  if c.preds.length = 0 then (s, true)
  else
    let (ls, gidx) := addLabel s.labels c.gt
    let (ls', rows) := predRows c s.datumCount gidx (argmax c.scores) (c.preds.zip c.scores) 0 ls
    if fits then (⟨ls', s.datumCount + 1, s.rows ++ [rows]⟩, false) else (⟨ls', s.datumCount, s.rows⟩, true)

/-- A caller who adds classifications one by one and ignores the exceptions. -/
def Loader.offerAll (s : Loader) (offers : List (Classif × Bool)) : Loader :=
  offers.foldl (fun s x => (s.offer x.1 x.2).1) s

/-- The loop `for idx in index_to_label.keys()` of `_create_rocauc_intermediate` (`evaluator.py` 190-216) reads and writes arrays of
length `n_labels` at `idx` when the table has a prediction of this label; otherwise it raises an `IndexError`, and so does `finalize`. -/
def rocIndexed (frags : List (List Row)) (labels : List (Nat × String)) : Bool :=
  frags.all (fun f => labels.all (fun lb => !(f.any (fun r => decide (r.pd = (lb.1 : Int)))) || decide (lb.1 < labels.length)))

/-! ## Vocabulary -/

/-- The classifications for which `add_data` did not raise. -/
def written (offers : List (Classif × Bool)) : List Classif :=
  (offers.filter (fun x => x.2 && decide (x.1.preds ≠ []))).map Prod.fst

/-- The label occurs in the classification. -/
def Carries (c : Classif) (l : String) : Prop := l = c.gt ∨ l ∈ c.preds

/-- A label of `a` that occurs in no classification of `b`. -/
def Orphan (a b : List Classif) (l : String) : Prop := (∃ c ∈ a, Carries c l) ∧ ∀ c ∈ b, ¬ Carries c l

/-! ## Invariant -/

/-- `LInv` without the requirement that every label is used. -/
structure OInv (s : Loader) (all cs : List Classif) : Prop where
  nodup : s.labels.Nodup
  count : s.datumCount = cs.length
  used : ∀ c ∈ all, c.valid = true → c.preds ≠ [] → c.gt ∈ s.labels ∧ ∀ p ∈ c.preds, p ∈ s.labels
  offered : ∀ x ∈ s.labels, ∃ c ∈ all, Carries c x
  rows : ∀ L, s.labels <+: L → L.Nodup → s.rows = cs.zipIdx.map (fun x => rowsOf L x.2 x.1)

theorem fst_zip_preds {c : Classif} (hv : c.valid = true) {p : String} (hp : p ∈ c.preds) : ∃ s, (p, s) ∈ c.preds.zip c.scores := by
  have hval : c.preds.length = c.scores.length := by simpa [Classif.valid] using hv
  obtain ⟨i, hi⟩ := List.mem_iff_getElem?.1 hp
  have hlt : i < c.scores.length := by
    rw [← hval]
    by_contra hcon
    rw [List.getElem?_eq_none (by omega)] at hi
    exact absurd hi (by simp)
  exact ⟨c.scores[i], List.mem_of_getElem? (List.getElem?_zip_eq_some.2 ⟨hi, List.getElem?_eq_getElem hlt⟩)⟩

theorem oinv_init : OInv Loader.init [] [] :=
  ⟨by simp [Loader.init], rfl, by simp, by simp [Loader.init], by simp [Loader.init]⟩

theorem written_append (a b : List (Classif × Bool)) : written (a ++ b) = written a ++ written b := by
  simp [written]

theorem oinv_offer {s : Loader} {all cs : List Classif} (i : OInv s all cs) (c : Classif) (fits : Bool) :
    OInv (s.offer c fits).1 (all ++ [c]) (cs ++ written [(c, fits)]) := by
  by_cases h0 : c.preds.length = 0
  · have hnil : c.preds = [] := List.length_eq_zero_iff.1 h0
    have hw : written [(c, fits)] = [] := by simp [written, hnil]
    rw [hw, List.append_nil]
    simp only [Loader.offer, h0, if_true]
    refine ⟨i.nodup, i.count, ?_, ?_, i.rows⟩
    · intro d hd hv hne
      rcases List.mem_append.1 hd with hd | hd
      · exact i.used d hd hv hne
      · simp at hd
        subst hd
        exact absurd hnil hne
    · intro x hx
      obtain ⟨d, hd, h⟩ := i.offered x hx
      exact ⟨d, by simp [hd], h⟩
  · have hne : c.preds ≠ [] := fun h => h0 (by rw [h]; rfl)
    obtain ⟨a1, a2, a3, a4, a5⟩ := addLabel_spec s.labels c.gt i.nodup
    obtain ⟨b1, b2, b3, b4, b5⟩ := predRows_spec c s.datumCount (argmax c.scores)
      (c.preds.zip c.scores) 0 (addLabel s.labels c.gt).1 a1 a3
    rw [← a4] at b1 b2 b3 b4 b5
    have hused : ∀ d ∈ all ++ [c], d.valid = true → d.preds ≠ [] →
        d.gt ∈ (predRows c s.datumCount (addLabel s.labels c.gt).2 (argmax c.scores) (c.preds.zip c.scores) 0 (addLabel s.labels c.gt).1).1 ∧
        ∀ p ∈ d.preds, p ∈ (predRows c s.datumCount (addLabel s.labels c.gt).2 (argmax c.scores) (c.preds.zip c.scores) 0
          (addLabel s.labels c.gt).1).1 := by
      intro d hd hv hdne
      rcases List.mem_append.1 hd with hd | hd
      · obtain ⟨u1, u2⟩ := i.used d hd hv hdne
        exact ⟨(a2.trans b2).subset u1, fun x hx => (a2.trans b2).subset (u2 x hx)⟩
      · simp at hd
        subst hd
        refine ⟨b2.subset a3, fun p hp => ?_⟩
        obtain ⟨sc, hsc⟩ := fst_zip_preds hv hp
        exact b3 _ hsc
    have hoff : ∀ x ∈ (predRows c s.datumCount (addLabel s.labels c.gt).2 (argmax c.scores) (c.preds.zip c.scores) 0
          (addLabel s.labels c.gt).1).1, ∃ d ∈ all ++ [c], Carries d x := by
      intro x hx
      rcases b4 x hx with h | ⟨sc, h⟩
      · rcases a5 x h with h | rfl
        · obtain ⟨d, hd, h⟩ := i.offered x h
          exact ⟨d, by simp [hd], h⟩
        · exact ⟨c, by simp, Or.inl rfl⟩
      · exact ⟨c, by simp, Or.inr (List.of_mem_zip h).1⟩
    cases fits with
    | true =>
      have hw : written [(c, true)] = [c] := by simp [written, hne]
      rw [hw]
      simp only [Loader.offer, h0, if_false, if_true]
      refine ⟨b1, by simp [i.count], hused, hoff, ?_⟩
      intro L hL hLn
      dsimp only
      rw [i.rows L ((a2.trans b2).trans hL) hLn, b5 L hL hLn, List.zipIdx_append, List.map_append]
      simp [rowsOf, i.count]
    | false =>
      have hw : written [(c, false)] = [] := by simp [written]
      rw [hw, List.append_nil]
      simp only [Loader.offer, h0, if_false, Bool.false_eq_true]
      refine ⟨b1, i.count, hused, hoff, ?_⟩
      intro L hL hLn
      exact i.rows L ((a2.trans b2).trans hL) hLn

theorem oinv_offerAll (offers : List (Classif × Bool)) : ∀ {s : Loader} {all cs : List Classif}, OInv s all cs →
    OInv (s.offerAll offers) (all ++ offers.map Prod.fst) (cs ++ written offers) := by
  induction offers with
  | nil => intro s all cs i; simpa [Loader.offerAll, written] using i
  | cons x xs ih =>
    intro s all cs i
    have := ih (oinv_offer i x.1 x.2)
    have hw : written (x :: xs) = written [x] ++ written xs := written_append [x] xs
    rw [hw]
    simpa [Loader.offerAll, List.append_assoc] using this

theorem oinv_reach (offers : List (Classif × Bool)) :
    OInv (Loader.init.offerAll offers) (offers.map Prod.fst) (written offers) := by
  simpa using oinv_offerAll offers oinv_init

theorem offer_rows (offers : List (Classif × Bool)) :
    (Loader.init.offerAll offers).rows
      = (written offers).zipIdx.map (fun x => rowsOf (Loader.init.offerAll offers).labels x.2 x.1) :=
  (oinv_reach offers).rows _ List.prefix_rfl (oinv_reach offers).nodup

theorem written_sub {offers : List (Classif × Bool)} {c : Classif} (h : c ∈ written offers) : c ∈ offers.map Prod.fst ∧ c.preds ≠ [] := by
  obtain ⟨x, hx, rfl⟩ := List.mem_map.1 h
  rw [List.mem_filter] at hx
  refine ⟨List.mem_map_of_mem hx.1, ?_⟩
  have := hx.2
  simp only [Bool.and_eq_true, decide_eq_true_eq] at this
  exact this.2

theorem covers_offer {offers : List (Classif × Bool)} (hv : ∀ x ∈ offers, x.1.valid = true) :
    ∀ c ∈ written offers, Covers (Loader.init.offerAll offers).labels c := by
  intro c hc
  obtain ⟨h1, h2⟩ := written_sub hc
  obtain ⟨x, hx, rfl⟩ := List.mem_map.1 h1
  obtain ⟨u1, u2⟩ := (oinv_reach offers).used _ h1 (hv x hx) h2
  exact ⟨u1, u2, by simpa [Classif.valid] using hv x hx, h2⟩

/-! ## Evaluating rows whose label table is any list -/

theorem mem_stored_rows {L : List String} {cs : List Classif} {r : Row} :
    r ∈ (cs.zipIdx.map (fun x => rowsOf L x.2 x.1)).flatten ↔
      ∃ (k : Nat) (c : Classif) (i : Nat) (p : String) (s : Rat), cs[k]? = some c ∧ c.preds[i]? = some p ∧ c.scores[i]? = some s ∧
        r = rowOf L k c i p s := by
  rw [List.mem_flatten]
  constructor
  · rintro ⟨b, hb, hr⟩
    obtain ⟨⟨c, k⟩, hk, rfl⟩ := List.mem_map.1 hb
    obtain ⟨i, p, s, h1, h2, h3⟩ := mem_rowsOf.1 hr
    exact ⟨k, c, i, p, s, List.mem_zipIdx_iff_getElem?.1 hk, h1, h2, h3⟩
  · rintro ⟨k, c, i, p, s, hk, h1, h2, h3⟩
    exact ⟨_, List.mem_map.2 ⟨(c, k), List.mem_zipIdx_iff_getElem?.2 hk, rfl⟩, mem_rowsOf.2 ⟨i, p, s, h1, h2, h3⟩⟩

/-- The extracted dictionary holds the labels that occur in the written rows, under the ids of the loader. -/
theorem labels_of {L : List String} (hnd : L.Nodup) {cs : List Classif} (hc : ∀ c ∈ cs, Covers L c) {tables : List (List Row)}
    (ht : tables.flatten.Perm (cs.zipIdx.map (fun x => rowsOf L x.2 x.1)).flatten) :
    let d := extractLabels (tables.map (fun t => t.map labelCols))
    (d.map Prod.fst).Nodup ∧
    ∀ (i : Int) (s : String), d.lookup i = some s ↔ (0 ≤ i ∧ L[i.toNat]? = some s) ∧ ∃ c ∈ cs, Carries c s := by
  intro d
  have hflat : (tables.map (fun t => t.map labelCols)).flatten = tables.flatten.map labelCols := by
    rw [List.map_flatten]
  have hmem : ∀ r, r ∈ tables.flatten ↔ r ∈ (cs.zipIdx.map (fun x => rowsOf L x.2 x.1)).flatten := fun r => ht.mem_iff
  have hlab : ∀ v ∈ L, L[(L.idxOf v)]? = some v := by
    intro v hv
    rw [List.getElem?_eq_getElem (idxOf_lt' hv)]
    simp
  obtain ⟨h1, h2⟩ := C50_extract (f := fun i => (L[i.toNat]?).getD "") (tables.map (fun t => t.map labelCols)) (by
    rw [hflat]
    intro r hr
    obtain ⟨x, hx, rfl⟩ := List.mem_map.1 hr
    obtain ⟨k, c, i, p, s, hk, hp, _, rfl⟩ := mem_stored_rows.1 ((hmem x).1 hx)
    have hcc := hc c (List.mem_of_getElem? hk)
    have a1 := hlab c.gt hcc.gt
    have a2 := hlab p (hcc.preds p (List.mem_of_getElem? hp))
    simp only [labelCols, rowOf, Int.toNat_natCast, a1, a2, Option.getD_some]
    exact ⟨fun _ => trivial, fun _ => trivial⟩)
  refine ⟨h1, ?_⟩
  intro i s
  rw [h2, hflat]
  constructor
  · rintro ⟨⟨_, r, hr, he⟩, rfl⟩
    obtain ⟨x, hx, rfl⟩ := List.mem_map.1 hr
    obtain ⟨k, c, j, p, s, hk, hp, _, rfl⟩ := mem_stored_rows.1 ((hmem x).1 hx)
    have hcm := List.mem_of_getElem? hk
    have hcc := hc c hcm
    rcases he with rfl | rfl
    · have a1 := hlab c.gt hcc.gt
      simp only [labelCols, rowOf, Int.toNat_natCast, a1, Option.getD_some]
      exact ⟨⟨by omega, trivial⟩, c, hcm, Or.inl rfl⟩
    · have a2 := hlab p (hcc.preds p (List.mem_of_getElem? hp))
      simp only [labelCols, rowOf, Int.toNat_natCast, a2, Option.getD_some]
      exact ⟨⟨by omega, trivial⟩, c, hcm, Or.inr (List.mem_of_getElem? hp)⟩
  · rintro ⟨⟨h0, hs⟩, c, hcm, hcase⟩
    refine ⟨⟨by omega, ?_⟩, by simp [hs]⟩
    have hi : (L.idxOf s : Int) = i := by
      obtain ⟨hlt, he⟩ := List.getElem?_eq_some_iff.1 hs
      have hx : L.idxOf L[i.toNat] = i.toNat := hnd.idxOf_getElem i.toNat hlt
      rw [he] at hx
      omega
    obtain ⟨k, hk⟩ := List.mem_iff_getElem?.1 hcm
    have hcc := hc c hcm
    have hget : ∀ j, j < c.preds.length → ∃ p s, c.preds[j]? = some p ∧ c.scores[j]? = some s := by
      intro j hj
      exact ⟨c.preds[j], c.scores[j]'(by rw [← hcc.valid]; exact hj), List.getElem?_eq_getElem hj, List.getElem?_eq_getElem _⟩
    rcases hcase with rfl | hp
    · obtain ⟨p, sc, e1, e2⟩ := hget 0 (List.length_pos_iff.2 hcc.ne)
      exact ⟨labelCols (rowOf L k c 0 p sc), List.mem_map_of_mem ((hmem _).2 (mem_stored_rows.2 ⟨k, c, 0, p, sc, hk, e1, e2, rfl⟩)),
        Or.inl hi⟩
    · obtain ⟨j, hj⟩ := List.mem_iff_getElem?.1 hp
      obtain ⟨p', sc, e1, e2⟩ := hget j (List.getElem?_eq_some_iff.1 hj).1
      rw [hj] at e1
      cases e1
      exact ⟨labelCols (rowOf L k c j s sc), List.mem_map_of_mem ((hmem _).2 (mem_stored_rows.2 ⟨k, c, j, s, sc, hk, hj, e2, rfl⟩)),
        Or.inr hi⟩

theorem inRange_of {L : List String} {cs : List Classif} (hc : ∀ c ∈ cs, Covers L c) :
    InRange (cs.zipIdx.map (fun x => rowsOf L x.2 x.1)).flatten L.length := by
  intro r hr
  obtain ⟨k, c, i, p, s, hk, hp, _, rfl⟩ := mem_stored_rows.1 hr
  have hcc := hc c (List.mem_of_getElem? hk)
  have a1 := idxOf_lt' hcc.gt
  have a2 := idxOf_lt' (hcc.preds p (List.mem_of_getElem? hp))
  simp only [rowOf]
  omega

/-- The report over rows written with any label table all of whose labels occur in the data. -/
theorem report_of {L : List String} (hnd : L.Nodup) {cs : List Classif} (hc : ∀ c ∈ cs, Covers L c)
    (hu : ∀ x ∈ L, ∃ c ∈ cs, Carries c x) (hL : L.length ≤ 100000) {frags : List (List Row)}
    (hf : FragmentsOf frags (cs.zipIdx.map (fun x => rowsOf L x.2 x.1)).flatten) {ts : List Rat} (hts : ts ≠ []) (hm : Bool) :
    ((evalLabels frags).map Prod.snd).Perm L ∧ rocIndexed frags (evalLabels frags) = true ∧
    reportPrecisionRecall frags ts hm (evalLabels frags)
      = some ⟨ts.map (fun t => ⟨"Accuracy", .number (((cs.map (fun c => specTP [c] t hm c.gt)).sum : Rat) / cs.length), some t, some hm, none⟩),
          perCell (evalLabels frags) ts (fun l t => Metric.counts (specTP cs t hm l) (specFP cs t hm l) (specFN cs t hm l) (specTN cs t hm l) t hm l),
          perCell (evalLabels frags) ts (fun l t => Metric.precision (precision ⟨specTP cs t hm l, specFP cs t hm l, specFN cs t hm l, specTN cs t hm l⟩) t hm l),
          perCell (evalLabels frags) ts (fun l t => Metric.recall (recall ⟨specTP cs t hm l, specFP cs t hm l, specFN cs t hm l, specTN cs t hm l⟩) t hm l),
          perCell (evalLabels frags) ts (fun l t => Metric.f1Score (f1 (precision ⟨specTP cs t hm l, specFP cs t hm l, specFN cs t hm l, specTN cs t hm l⟩)
            (recall ⟨specTP cs t hm l, specFP cs t hm l, specFN cs t hm l, specTN cs t hm l⟩)) t hm l)⟩ := by
  obtain ⟨k1, k2⟩ := labels_of hnd hc hf.perm
  have k3 : ∀ (i : Int) (s : String), (extractLabels (frags.map (fun t => t.map labelCols))).lookup i = some s ↔ 0 ≤ i ∧ L[i.toNat]? = some s := by
    intro i s
    rw [k2]
    exact ⟨fun h => h.1, fun h => ⟨h, hu s (List.mem_of_getElem? h.2)⟩⟩
  have h1 : (evalLabels frags).length = L.length := numbered_length k1 k3
  have h2 : ∀ lb ∈ evalLabels frags, L[lb.1]? = some lb.2 := fun lb hlb => numbered_label k1 k3 hlb
  have h3 : ((evalLabels frags).map Prod.snd).Perm L := numbered_names k1 k3
  refine ⟨h3, ?_, ?_⟩
  · unfold rocIndexed
    rw [List.all_eq_true]
    intro f _
    rw [List.all_eq_true]
    intro lb hlb
    have : lb.1 < L.length := (List.getElem?_eq_some_iff.1 (h2 lb hlb)).1
    simp [h1, this]
  · have hcnt : evalCounts frags ts hm L.length = some (ts.map (fun t => L.map (fun l =>
          ⟨specTP cs t hm l, specFP cs t hm l, specFN cs t hm l, specTN cs t hm l⟩))) := by
      rw [evalCounts_eq (inRange_of hc) hf]
      congr 1
      apply List.map_congr_left
      intro t _
      refine List.ext_getElem (by simp) ?_
      intro j g1 g2
      have hj : j < L.length := by simpa using g2
      rw [List.getElem_map, List.getElem_map, List.getElem_range, ← cnt_blocks hL (List.getElem_mem hj) hm t cs 0 hc, hnd.idxOf_getElem j hj]
    have hN : numberOfDatums frags = cs.length := by
      rw [numberOfDatums_eq hf]
      exact datums_blocks _ _ 0 hc
    have hcpr : computePrecisionRecall frags ts hm (evalLabels frags).length none
        = some (ts.map (fun t => toMetrics cs.length (L.map (fun l =>
            ⟨specTP cs t hm l, specFP cs t hm l, specFN cs t hm l, specTN cs t hm l⟩)))) := by
      unfold computePrecisionRecall
      rw [if_neg (by simpa using hts)]
      dsimp only
      rw [h1, hcnt, hN]
      simp only [Option.map_some, List.map_map, Function.comp_def]
    unfold reportPrecisionRecall
    rw [hcpr, Option.bind_some, unpackPrecisionRecall_eq h2]
    congr 2
    apply List.map_congr_left
    intro t _
    rw [accuracy_eq, List.map_map]
    have := sum_specTP hnd cs (fun c h => (hc c h).gt) t hm
    unfold Metric.accuracy
    rw [← this]
    rfl

theorem perCell_perm {a b : List (Nat × String)} (h : (a.map Prod.snd).Perm (b.map Prod.snd)) (ts : List Rat) (f : String → Rat → Metric) :
    (perCell a ts f).Perm (perCell b ts f) := by
  have e : ∀ x : List (Nat × String), perCell x ts f = (x.map Prod.snd).flatMap (fun l => ts.map (fun t => f l t)) := by
    intro x
    unfold perCell
    rw [List.flatMap_map]
  rw [e, e]
  exact h.flatMap_right _

/-- The full statement, for the sequences of `add_data` calls satisfying `P`: what the refused classifications leave behind does not
matter. `finalize` finds all its indices, and the report has exactly the metrics of a loader that was only given the classifications
that were accepted, for all cuts and orders of the rows of the two caches. -/
def NoTrace (P : List (Classif × Bool) → Prop) : Prop :=
  ∀ offers : List (Classif × Bool), (∀ x ∈ offers, x.1.valid = true) → (Loader.init.offerAll offers).labels.length ≤ 100000 → P offers →
    ∀ frags, FragmentsOf frags (Loader.init.offerAll offers).rows.flatten →
    ∀ alone, FragmentsOf alone (Loader.init.addAll [written offers]).rows.flatten →
    ∀ (ts : List Rat), ts ≠ [] → ∀ hm : Bool,
    rocIndexed frags (evalLabels frags) = true ∧
    ∃ R A, reportPrecisionRecall frags ts hm (evalLabels frags) = some R ∧ reportPrecisionRecall alone ts hm (evalLabels alone) = some A ∧
      R.accuracy = A.accuracy ∧ R.counts.Perm A.counts ∧ R.precision.Perm A.precision ∧ R.recall.Perm A.recall ∧ R.f1.Perm A.f1

theorem history_written (offers : List (Classif × Bool)) : history [written offers] = written offers := by
  unfold history accepted
  rw [List.flatMap_cons, List.flatMap_nil, List.append_nil, List.takeWhile_eq_self_iff]
  intro c hc
  have := (written_sub hc).2
  simpa using this

/-- **C99 (classification, partial).** Refused classifications leave no trace if each label occurs in an accepted classification. What
is missing: labels that only occur in refused classifications (`C99_gap`, `C99_classification_violation`). -/
theorem C99_classification_partial :
    NoTrace (fun offers => ∀ l, ¬ Orphan (offers.map Prod.fst) (written offers) l) := by
  intro offers hv hL hno frags hf alone ha ts hts hm
  have inv := oinv_reach offers
  have hcov := covers_offer hv
  rw [offer_rows] at hf
  have hu : ∀ x ∈ (Loader.init.offerAll offers).labels, ∃ c ∈ written offers, Carries c x := by
    intro x hx
    by_contra hcon
    push Not at hcon
    exact hno x ⟨inv.offered x hx, hcon⟩
  obtain ⟨p1, p2, p3⟩ := report_of inv.nodup hcov hu hL hf hts hm
  have hvw : ∀ c ∈ [written offers].flatten, c.valid = true := by
    intro c hc
    rw [List.flatten_singleton] at hc
    obtain ⟨x, hx, rfl⟩ := List.mem_map.1 (written_sub hc).1
    exact hv x hx
  have hcov' := covers_reach [written offers] hvw
  have inv' := linv_reach [written offers]
  rw [rows_reach] at ha
  change FragmentsOf alone ((history [written offers]).zipIdx.map
    (fun x => rowsOf (Loader.init.addAll [written offers]).labels x.2 x.1)).flatten at ha
  have hsame : (Loader.init.offerAll offers).labels.Perm (Loader.init.addAll [written offers]).labels := by
    rw [List.perm_ext_iff_of_nodup inv.nodup inv'.nodup]
    intro l
    constructor
    · intro hl
      obtain ⟨c, hc, h⟩ := hu l hl
      rw [← history_written offers] at hc
      rcases h with rfl | h
      · exact (hcov' c hc).gt
      · exact (hcov' c hc).preds l h
    · intro hl
      obtain ⟨c, hc, h⟩ := inv'.onlyUsed l hl
      change c ∈ history [written offers] at hc
      rw [history_written] at hc
      rcases h with rfl | h
      · exact (hcov c hc).gt
      · exact (hcov c hc).preds l h
  rw [history_written] at ha hcov'
  obtain ⟨q1, q2, q3⟩ := report_of inv'.nodup hcov' (by
    intro x hx
    obtain ⟨c, hc, h⟩ := inv'.onlyUsed x hx
    change c ∈ history [written offers] at hc
    rw [history_written] at hc
    exact ⟨c, hc, h⟩) (by rw [← hsame.length_eq]; exact hL) ha hts hm
  have hp : ((evalLabels frags).map Prod.snd).Perm ((evalLabels alone).map Prod.snd) := p1.trans (hsame.trans q1.symm)
  refine ⟨p2, _, _, p3, q3, rfl, ?_, ?_, ?_, ?_⟩ <;> (dsimp only; exact perCell_perm hp _ _)

/-! ## Labels left behind -/

/-- The last label of the table after the predictions. -/
theorem predRows_last (c : Classif) (k g w : Nat) (l : List (String × Rat)) : ∀ (i : Nat) (ls : List String),
    (predRows c k g w l i ls).1 = ls ∨ ∃ x ∈ l, (predRows c k g w l i ls).1.getLast? = some x.1 := by
  induction l with
  | nil => intro i ls; exact Or.inl rfl
  | cons q rest ih =>
    intro i ls
    obtain ⟨p, s⟩ := q
    have e : (predRows c k g w ((p, s) :: rest) i ls).1 = (predRows c k g w rest (i + 1) (addLabel ls p).1).1 := rfl
    rw [e]
    rcases ih (i + 1) (addLabel ls p).1 with h | ⟨x, hx, h⟩
    · rw [h]
      unfold addLabel
      cases ls.idxOf? p with
      | some j => exact Or.inl rfl
      | none => exact Or.inr ⟨(p, s), by simp, by simp⟩
    · exact Or.inr ⟨x, by simp [hx], h⟩

/-- A row with a predicted id outside the table of labels makes the counts fail at every threshold. -/
theorem countsAt_none {rows : List Row} {n : Nat} {r : Row} (hr : r ∈ rows) (hn : (n : Int) ≤ r.pd) (hg : labelMatch r = true → r.gt = r.pd)
    (h : Bool) (t : Rat) : countsAt rows h n t = none := by
  have fail : ∀ xs : List Int, r.pd ∈ xs → bincount xs n = none := by
    intro xs hx
    unfold bincount
    rw [if_neg]
    rw [List.all_eq_true]
    intro hall
    have := hall _ hx
    simp only [Bool.and_eq_true, decide_eq_true_eq] at this
    omega
  have key : bincount ((rows.filter (tpMask t h)).map Row.pd) n = none ∨ bincount ((rows.filter (fpMask t h)).map Row.pd) n = none ∨
      bincount ((unique ((rows.filter (fnMask t h)).map (fun r => (r.datum, r.gt)))).map Prod.snd) n = none ∨
      bincount ((unique ((rows.filter (tnMask t h)).map (fun r => (r.datum, r.pd)))).map Prod.snd) n = none := by
    by_cases hm : labelMatch r = true <;> by_cases hs : scoreMask t h r = true
    · left
      exact fail _ (List.mem_map_of_mem (List.mem_filter.2 ⟨hr, by simp [tpMask, hm, hs]⟩))
    · right; right; left
      have hpg : r.gt = r.pd := hg hm
      have : ((r.datum, r.gt) : Int × Int) ∈ unique ((rows.filter (fnMask t h)).map (fun r => (r.datum, r.gt))) := by
        unfold unique
        rw [List.mem_dedup]
        refine List.mem_map.2 ⟨r, List.mem_filter.2 ⟨hr, ?_⟩, rfl⟩
        have : (0 : Int) ≤ r.gt := by omega
        simp [fnMask, hm, hs, this]
      apply fail
      rw [← hpg]
      exact List.mem_map.2 ⟨_, this, rfl⟩
    · right; left
      have : (0 : Int) ≤ r.pd := by omega
      exact fail _ (List.mem_map_of_mem (List.mem_filter.2 ⟨hr, by simp [fpMask, hm, hs, this]⟩))
    · right; right; right
      have : ((r.datum, r.pd) : Int × Int) ∈ unique ((rows.filter (tnMask t h)).map (fun r => (r.datum, r.pd))) := by
        unfold unique
        rw [List.mem_dedup]
        exact List.mem_map.2 ⟨r, List.mem_filter.2 ⟨hr, by simp [tnMask, hm, hs]⟩, rfl⟩
      exact fail _ (List.mem_map.2 ⟨_, this, rfl⟩)
  unfold countsAt
  simp only [Option.bind_eq_bind]
  rcases key with k | k | k | k
  · rw [k]; rfl
  · rw [k]; cases bincount ((rows.filter (tpMask t h)).map Row.pd) n <;> rfl
  · rw [k]
    cases bincount ((rows.filter (tpMask t h)).map Row.pd) n
    · rfl
    · cases bincount ((rows.filter (fpMask t h)).map Row.pd) n <;> rfl
  · rw [k]
    cases bincount ((rows.filter (tpMask t h)).map Row.pd) n
    · rfl
    · cases bincount ((rows.filter (fpMask t h)).map Row.pd) n
      · rfl
      · cases bincount ((unique ((rows.filter (fnMask t h)).map (fun r => (r.datum, r.gt)))).map Prod.snd) n <;> rfl

theorem foldlM_none {α β : Type} {f : β → α → Option β} {l : List α} {a : α} (ha : a ∈ l) (h : ∀ b, f b a = none) :
    ∀ b, l.foldlM f b = none := by
  induction l with
  | nil => simp at ha
  | cons x xs ih =>
    intro b
    rw [List.foldlM_cons]
    rcases List.mem_cons.1 ha with rfl | ha
    · rw [h]; rfl
    · cases f b x with
      | none => rfl
      | some b' => exact ih ha b'

theorem evalCounts_none {frags : List (List Row)} {n : Nat} {r : Row} (hr : r ∈ frags.flatten) (hn : (n : Int) ≤ r.pd)
    (hg : labelMatch r = true → r.gt = r.pd) {ts : List Rat} (hts : ts ≠ []) (h : Bool) : evalCounts frags ts h n = none := by
  obtain ⟨f, hf, hrf⟩ := List.mem_flatten.1 hr
  unfold evalCounts
  apply foldlM_none hf
  intro b
  have : computeCounts f ts h n = none := by
    unfold computeCounts
    rw [if_neg (by intro he; rw [List.isEmpty_iff] at he; rw [he] at hrf; simp at hrf)]
    cases ts with
    | nil => exact absurd rfl hts
    | cons t ts => rw [List.mapM_cons, countsAt_none hrf hn hg]; rfl
  rw [this]
  rfl

theorem lookup_of_mem {d : List (Int × String)} (hnd : (d.map Prod.fst).Nodup) {x : Int × String} (hx : x ∈ d) : d.lookup x.1 = some x.2 := by
  induction d with
  | nil => simp at hx
  | cons y ys ih =>
    rw [List.map_cons, List.nodup_cons] at hnd
    rw [List.lookup_cons]
    rcases List.mem_cons.1 hx with rfl | h
    · simp
    · have hne : x.1 ≠ y.1 := fun e => hnd.1 (e ▸ List.mem_map_of_mem (f := Prod.fst) h)
      have : (x.1 == y.1) = false := by simpa using hne
      rw [this]
      exact ih hnd.2 h

/-- **C99 (classification, labels left behind).** As soon as some label was only offered in refused classifications, the next accepted
classification that predicts a label that was never offered before makes the evaluation impossible: `finalize` raises, and so would
the metrics, for all thresholds, both `hardmax` settings and all cuts of the rows. -/
theorem C99_gap (pre : List (Classif × Bool)) (c : Classif) (hv : ∀ x ∈ pre ++ [(c, true)], x.1.valid = true) {o p : String}
    (ho : Orphan ((pre.map Prod.fst).filter (fun d => decide (d.preds ≠ []))) (written pre ++ [c]) o) (hp : p ∈ c.preds)
    (hnew : ∀ d ∈ pre.map Prod.fst, ¬ Carries d p) (hsmall : (Loader.init.offerAll (pre ++ [(c, true)])).labels.length ≤ 100000)
    {frags : List (List Row)} (hf : FragmentsOf frags (Loader.init.offerAll (pre ++ [(c, true)])).rows.flatten)
    {ts : List Rat} (hts : ts ≠ []) (hm : Bool) :
    rocIndexed frags (evalLabels frags) = false ∧ reportPrecisionRecall frags ts hm (evalLabels frags) = none := by
  set offers := pre ++ [(c, true)] with hoff
  have hne : c.preds ≠ [] := List.ne_nil_of_mem hp
  have hw : written offers = written pre ++ [c] := by
    rw [hoff, written_append]
    congr 1
    simp [written, hne]
  have inv := oinv_reach offers
  have invp := oinv_reach pre
  have hcov := covers_offer hv
  have hcc : Covers (Loader.init.offerAll offers).labels c := hcov c (by rw [hw]; simp)
  rw [offer_rows] at hf
  set L := (Loader.init.offerAll offers).labels with hLdef
  -- the table after `c`
  have hL : L = (predRows c (Loader.init.offerAll pre).datumCount (addLabel (Loader.init.offerAll pre).labels c.gt).2 (argmax c.scores)
      (c.preds.zip c.scores) 0 (addLabel (Loader.init.offerAll pre).labels c.gt).1).1 := by
    have h0 : c.preds.length ≠ 0 := fun h => hne (List.length_eq_zero_iff.1 h)
    rw [hLdef, hoff]
    unfold Loader.offerAll
    rw [List.foldl_append, List.foldl_cons, List.foldl_nil]
    unfold Loader.offer
    rw [if_neg h0]
    rfl
  have hpL : p ∈ L := hcc.preds p hp
  have hpPre : p ∉ (Loader.init.offerAll pre).labels := by
    intro h
    obtain ⟨d, hd, h⟩ := invp.offered p h
    exact hnew d hd h
  -- the last label is predicted by `c`
  have hlast : ∃ q ∈ c.preds, L.getLast? = some q := by
    rcases predRows_last c (Loader.init.offerAll pre).datumCount (addLabel (Loader.init.offerAll pre).labels c.gt).2 (argmax c.scores)
      (c.preds.zip c.scores) 0 (addLabel (Loader.init.offerAll pre).labels c.gt).1 with h | ⟨x, hx, h⟩
    · rw [← hL] at h
      have hpa : p ∈ (addLabel (Loader.init.offerAll pre).labels c.gt).1 := h ▸ hpL
      have hpg : p = c.gt := by
        rcases (addLabel_spec _ c.gt invp.nodup).2.2.2.2 p hpa with h | h
        · exact absurd h hpPre
        · exact h
      refine ⟨p, hp, ?_⟩
      rw [h]
      unfold addLabel
      rw [hpg] at hpPre
      rw [List.idxOf?_eq_none_iff.2 hpPre]
      simp [hpg]
    · rw [← hL] at h
      exact ⟨x.1, (List.of_mem_zip hx).1, h⟩
  obtain ⟨q, hq, hlq⟩ := hlast
  have hqi : L.idxOf q + 1 = L.length := by
    have hLne : L ≠ [] := List.ne_nil_of_mem hpL
    have hpos : 0 < L.length := List.length_pos_iff.2 hLne
    rw [List.getLast?_eq_getElem?] at hlq
    obtain ⟨hlt, he⟩ := List.getElem?_eq_some_iff.1 hlq
    have hx : L.idxOf L[L.length - 1] = L.length - 1 := inv.nodup.idxOf_getElem (L.length - 1) hlt
    rw [he] at hx
    omega
  -- the orphan is in the table but not in the dictionary
  have hoL : o ∈ L := by
    obtain ⟨⟨d, hd, hdo⟩, _⟩ := ho
    rw [List.mem_filter, decide_eq_true_eq] at hd
    have hd' : d ∈ offers.map Prod.fst := by rw [hoff, List.map_append]; exact List.mem_append_left _ hd.1
    obtain ⟨x, hx, rfl⟩ := List.mem_map.1 hd'
    obtain ⟨u1, u2⟩ := inv.used _ hd' (hv x hx) hd.2
    rcases hdo with rfl | h
    · exact u1
    · exact u2 o h
  obtain ⟨k1, k2⟩ := labels_of inv.nodup hcov hf.perm
  have hsub : ((evalLabels frags).map Prod.snd).Subperm (L.erase o) ∧ ∀ lb ∈ evalLabels frags, L[lb.1]? = some lb.2 := by
    have hmem : ∀ lb ∈ evalLabels frags, L[lb.1]? = some lb.2 ∧ ∃ d ∈ written offers, Carries d lb.2 := by
      intro lb hlb
      unfold evalLabels numbered at hlb
      obtain ⟨x, hx, rfl⟩ := List.mem_map.1 hlb
      have := (k2 x.1 x.2).1 (lookup_of_mem k1 hx)
      exact ⟨this.1.2, this.2⟩
    refine ⟨?_, fun lb hlb => (hmem lb hlb).1⟩
    have hndk : ((evalLabels frags).map Prod.snd).Nodup := by
      have hfst : ((evalLabels frags).map Prod.fst).Nodup := by
        unfold evalLabels numbered
        rw [List.map_map]
        refine List.Nodup.of_map (fun n : Nat => (n : Int)) ?_
        rw [List.map_map]
        have : List.map ((fun n : Nat => (n : Int)) ∘ Prod.fst ∘ fun x : Int × String => (x.1.toNat, x.2))
            (extractLabels (frags.map (fun t => t.map labelCols))) = (extractLabels (frags.map (fun t => t.map labelCols))).map Prod.fst := by
          apply List.map_congr_left
          intro x hx
          have := ((k2 x.1 x.2).1 (lookup_of_mem k1 hx)).1.1
          simp only [Function.comp_apply]
          omega
        rw [this]
        exact k1
      have hnd2 : (evalLabels frags).Nodup := List.Nodup.of_map _ hfst
      refine (List.nodup_map_iff_inj_on hnd2).2 ?_
      intro a ha b hb hab
      have e1 := (hmem a ha).1
      have e2 := (hmem b hb).1
      rw [← hab] at e2
      have hij : a.1 = b.1 := by
        obtain ⟨l1, g1⟩ := List.getElem?_eq_some_iff.1 e1
        obtain ⟨l2, g2⟩ := List.getElem?_eq_some_iff.1 e2
        exact (List.Nodup.getElem_inj_iff inv.nodup).1 (g1.trans g2.symm)
      exact Prod.ext hij hab
    refine List.Nodup.subperm hndk ?_
    intro s hs
    obtain ⟨lb, hlb, rfl⟩ := List.mem_map.1 hs
    obtain ⟨e1, d, hd, hds⟩ := hmem lb hlb
    rw [inv.nodup.mem_erase_iff]
    refine ⟨?_, List.mem_of_getElem? e1⟩
    rintro rfl
    rw [hw] at hd
    exact ho.2 d hd hds
  have hlen : (evalLabels frags).length < L.length := by
    have := hsub.1.length_le
    rw [List.length_map, List.length_erase_of_mem hoL] at this
    have : 0 < L.length := List.length_pos_iff.2 (List.ne_nil_of_mem hoL)
    omega
  -- a row predicting the last label
  obtain ⟨j, hj⟩ := List.mem_iff_getElem?.1 hq
  have hjlt := (List.getElem?_eq_some_iff.1 hj).1
  have hsc : c.scores[j]? = some (c.scores[j]'(by rw [← hcc.valid]; exact hjlt)) := List.getElem?_eq_getElem _
  have hck : (written offers)[(written pre).length]? = some c := by rw [hw]; simp
  have hrow := hf.perm.mem_iff.2 (mem_stored_rows.2 ⟨_, c, j, q, _, hck, hj, hsc, rfl⟩)
  have hqlab : (L.idxOf q, q) ∈ evalLabels frags := by
    have hqL : q ∈ L := hcc.preds q hq
    have hlook := (k2 (L.idxOf q : Nat) q).2 ⟨⟨by omega, by simpa using List.getElem?_idxOf hqL⟩, c, by rw [hw]; simp, Or.inr hq⟩
    have : ((L.idxOf q : Int), q) ∈ extractLabels (frags.map (fun t => t.map labelCols)) := by
      have gen : ∀ (d : List (Int × String)) (i : Int) (s : String), d.lookup i = some s → (i, s) ∈ d := by
        intro d
        induction d with
        | nil => intro i s h; simp at h
        | cons y ys ih =>
          intro i s h
          rw [List.lookup_cons] at h
          split at h
          · next hy =>
            have h1 : i = y.1 := by simpa using hy
            have h2 : y.2 = s := by simpa using h
            rw [h1, ← h2]
            simp
          · exact List.mem_cons_of_mem _ (ih i s h)
      exact gen _ _ _ hlook
    unfold evalLabels numbered
    exact List.mem_map.2 ⟨_, this, by simp⟩
  constructor
  · obtain ⟨f, hfm, hrf⟩ := List.mem_flatten.1 hrow
    unfold rocIndexed
    rw [List.all_eq_false]
    refine ⟨f, hfm, ?_⟩
    rw [Bool.not_eq_true, List.all_eq_false]
    refine ⟨_, hqlab, ?_⟩
    have hany : f.any (fun r => decide (r.pd = ((L.idxOf q, q).1 : Int))) = true := by
      rw [List.any_eq_true]
      exact ⟨_, hrf, by simp [rowOf]⟩
    rw [hany]
    simp
    omega
  · unfold reportPrecisionRecall computePrecisionRecall
    rw [if_neg (by simpa using hts)]
    dsimp only
    rw [evalCounts_none hrow (by simp only [rowOf]; omega) (by
      intro hmt
      have hlt : L.idxOf q < L.length := idxOf_lt' (hcc.preds q hq)
      unfold labelMatch at hmt
      simp only [rowOf] at hmt ⊢
      rw [isclose_ids (by omega) (by omega), decide_eq_true_eq] at hmt
      exact hmt) hts]
    rfl

/-! ## Witnesses -/

/-- A refused classification with the label `bird`, then one that is accepted. -/
def birdRefused : List (Classif × Bool) := [(⟨"d0", "bird", ["bird"], [1], ""⟩, false), (⟨"d1", "cat", ["cat", "dog"], [3/4, 1/4], ""⟩, true)]

/-- **C99 (classification, violation).** The statement is false without a condition: after a refused classification whose label does
not occur again, the evaluation of the accepted ones fails. -/
theorem C99_classification_violation : ¬ NoTrace (fun _ => True) := by
  intro h
  have hf : FragmentsOf (Loader.init.offerAll birdRefused).rows (Loader.init.offerAll birdRefused).rows.flatten :=
    ⟨List.Perm.refl _, by decide +kernel⟩
  have ha : FragmentsOf (Loader.init.addAll [written birdRefused]).rows (Loader.init.addAll [written birdRefused]).rows.flatten :=
    ⟨List.Perm.refl _, by decide +kernel⟩
  obtain ⟨_, R, A, h1, _⟩ := h birdRefused (by decide +kernel) (by decide +kernel) trivial _ hf _ ha [1/2] (by simp) true
  have := (C99_gap [(⟨"d0", "bird", ["bird"], [1], ""⟩, false)] ⟨"d1", "cat", ["cat", "dog"], [3/4, 1/4], ""⟩ (by decide +kernel)
    (o := "bird") (p := "dog") ⟨⟨⟨"d0", "bird", ["bird"], [1], ""⟩, by decide +kernel, Or.inl rfl⟩, by
      intro d hd
      have : d = ⟨"d1", "cat", ["cat", "dog"], [3/4, 1/4], ""⟩ := by simpa [written] using hd
      subst this
      rintro (h | h)
      · exact absurd h (by decide)
      · exact absurd h (by decide)⟩ (by decide) (by
      intro d hd
      have : d = ⟨"d0", "bird", ["bird"], [1], ""⟩ := by simpa using hd
      subst this
      rintro (h | h)
      · exact absurd h (by decide)
      · exact absurd h (by decide)) (by decide +kernel) hf (ts := [1/2]) (by simp) true).2
  change reportPrecisionRecall (Loader.init.offerAll birdRefused).rows [1/2] true _ = none at this
  rw [this] at h1
  exact absurd h1 (by simp)

/-- The same classification offered again in a form that is accepted: the hypotheses of the partial theorem hold. -/
example :
    let offers : List (Classif × Bool) := [(⟨"d0", "bird", ["bird"], [1], "three"⟩, false), (⟨"d1", "cat", ["cat", "dog"], [3/4, 1/4], "1"⟩, true),
      (⟨"d0", "bird", ["bird"], [1], "3"⟩, true)]
    (∀ x ∈ offers, x.1.valid = true) ∧ (Loader.init.offerAll offers).labels = ["bird", "cat", "dog"] ∧
      (written offers).map Classif.uid = ["d1", "d0"] ∧ (Loader.init.addAll [written offers]).labels = ["cat", "dog", "bird"] ∧
      ∀ l, ¬ Orphan (offers.map Prod.fst) (written offers) l := by
  refine ⟨by decide +kernel, by decide +kernel, by decide +kernel, by decide +kernel, ?_⟩
  rintro l ⟨⟨c, hc, hl⟩, hno⟩
  simp only [List.map_cons, List.map_nil, List.mem_cons, List.not_mem_nil, or_false] at hc
  have w : ∀ d, d ∈ written [((⟨"d0", "bird", ["bird"], [1], "three"⟩ : Classif), false),
      (⟨"d1", "cat", ["cat", "dog"], [3/4, 1/4], "1"⟩, true), (⟨"d0", "bird", ["bird"], [1], "3"⟩, true)] ↔
      d = ⟨"d1", "cat", ["cat", "dog"], [3/4, 1/4], "1"⟩ ∨ d = ⟨"d0", "bird", ["bird"], [1], "3"⟩ := by
    intro d
    simp [written]
  rcases hc with rfl | rfl | rfl
  · exact hno _ ((w _).2 (Or.inr rfl)) hl
  · exact hno _ ((w _).2 (Or.inl rfl)) hl
  · exact hno _ ((w _).2 (Or.inr rfl)) hl

end Verif.Classification
