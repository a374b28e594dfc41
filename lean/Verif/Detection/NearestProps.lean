import Verif.Detection.ShardProps

/-!
# The counts as a function of the annotations

The ground truth that a label of a prediction is compared with is the first one of the label with the largest IoU. With this the counts of
every label are functions of the annotations that were added, also for predictions with several labels.
-/

namespace Verif.Detection

open Verif.Cache (sortBy sortBy_stable)

/-! ## The specification -/

/-- The score of a prediction for a label. -/
def scoreOf (v : String) (a : Ann) : Rat := ((a.labels.zip a.scores).lookup v).getD 0

/-- No prediction repeats a label. -/
def DistinctLabels (H : History) : Prop := ∀ x ∈ H, ∀ a ∈ x.1.pds, a.labels.Nodup

/-- Ground truth `g` is the one that prediction `p` is compared with for label `v`: it has the label, the IoU is not below EPSILON,
no ground truth of the label has a larger IoU, and none before it has the same. -/
def Nearest (x : Det × (Nat → Nat → Rat)) (v : String) (p g : Nat) : Prop :=
  (∃ b, x.1.gts[g]? = some b ∧ b.labels = [v]) ∧ EPSILON ≤ x.2 p g ∧
    ∀ g' b', x.1.gts[g']? = some b' → b'.labels = [v] → x.2 p g' ≤ x.2 p g ∧ (g' < g → x.2 p g' < x.2 p g)

/-- A prediction has the label and a score for it that passes the threshold. -/
def Passing (x : Det × (Nat → Nat → Rat)) (s : Rat) (v : String) (p : Nat) : Prop :=
  ∃ a, x.1.pds[p]? = some a ∧ v ∈ a.labels ∧ s ≤ scoreOf v a ∧ EPSILON < scoreOf v a

/-- Ground truth `g` is found: it is the nearest one of a passing prediction, with IoU at least `t`. -/
def Hit (x : Det × (Nat → Nat → Rat)) (t s : Rat) (v : String) (g : Nat) : Prop := ∃ p, Passing x s v p ∧ Nearest x v p g ∧ t ≤ x.2 p g

/-- Prediction `p` overlaps a ground truth of the label. -/
def Touches (x : Det × (Nat → Nat → Rat)) (v : String) (p : Nat) : Prop := ∃ g b, x.1.gts[g]? = some b ∧ b.labels = [v] ∧ EPSILON ≤ x.2 p g

/-- Prediction `p` is counted for the label: it passes, and overlaps a ground truth of the label or none of any of its labels. -/
def Counted (x : Det × (Nat → Nat → Rat)) (s : Rat) (v : String) (p : Nat) : Prop :=
  Passing x s v p ∧ (Touches x v p ∨ ∀ a, x.1.pds[p]? = some a → ∀ w ∈ a.labels, ¬ Touches x w p)

open Classical in
/-- Number of ground truths found in one detection. -/
noncomputable def hitCount (x : Det × (Nat → Nat → Rat)) (t s : Rat) (v : String) : Nat :=
  ((List.range x.1.gts.length).filter (fun g => decide (Hit x t s v g))).length

open Classical in
/-- Number of predictions counted in one detection. -/
noncomputable def pdCount (x : Det × (Nat → Nat → Rat)) (s : Rat) (v : String) : Nat :=
  ((List.range x.1.pds.length).filter (fun p => decide (Counted x s v p))).length

/-! ## The first of the best rows -/

/-- The rows of a detection come in the order of the ground truths. -/
theorem rowsOf_asc (L : List String) (d : Det) (iou : Nat → Nat → Rat) (k g0 p0 : Nat) :
    ((rowsOf L d iou k g0 p0).filter (fun r => decide (0 ≤ r.row.gt))).Pairwise (fun a b => a.row.gt ≤ b.row.gt) := by
  have hpd : ∀ (y : Ann × Nat) (r : FRow), r ∈ (pdSteps d k p0 y).flatMap (fun s => s.out (idOf L s.gl) (idOf L s.pl)) → r.row.gt = -1 := by
    intro y r hr
    obtain ⟨_, _, _, rfl⟩ := mem_pdSteps.1 hr
    rfl
  have hgt : ∀ (x : Ann × Nat) (r : FRow), r ∈ (gtSteps d iou k g0 p0 x).flatMap (fun s => s.out (idOf L s.gl) (idOf L s.pl)) →
      r.row.gt = ((g0 + x.2 : Nat) : Int) ∨ r.row.gt = -1 := by
    intro x r hr
    unfold gtSteps at hr
    rw [List.flatMap_cons, List.mem_append] at hr
    rcases hr with hr | hr
    · dsimp only at hr
      split at hr
      · rw [List.mem_singleton] at hr
        subst hr
        exact Or.inl rfl
      · cases hr
    · rw [List.flatMap_assoc, List.mem_flatMap] at hr
      obtain ⟨y, _, hr⟩ := hr
      rw [List.flatMap_append, List.mem_append] at hr
      rcases hr with hr | hr
      · split at hr
        · exact Or.inr (hpd y r hr)
        · cases hr
      · split at hr
        · rw [List.flatMap_assoc, List.mem_flatMap] at hr
          obtain ⟨l, _, hr⟩ := hr
          rw [List.flatMap_map, List.mem_flatMap] at hr
          obtain ⟨z, _, hr⟩ := hr
          rw [List.mem_singleton] at hr
          subst hr
          exact Or.inl rfl
        · cases hr
  unfold rowsOf detSteps
  split
  · rw [List.flatMap_assoc, List.filter_flatMap, List.pairwise_flatMap]
    constructor
    · intro x _
      rw [List.pairwise_iff_forall_sublist]
      intro a b hab
      have ha := List.mem_filter.1 (hab.subset (by simp : a ∈ [a, b]))
      have hb := List.mem_filter.1 (hab.subset (by simp : b ∈ [a, b]))
      have h1 := hgt x a ha.1
      have h2 := hgt x b hb.1
      have h3 := of_decide_eq_true ha.2
      have h4 := of_decide_eq_true hb.2
      omega
    · have hz : d.gts.zipIdx.Pairwise (fun x y => x.2 < y.2) := by
        have : (d.gts.zipIdx.map Prod.snd).Pairwise (· < ·) := by
          rw [List.zipIdx_map_snd]
          exact List.pairwise_lt_range'
        exact List.pairwise_map.1 this
      refine hz.imp ?_
      intro x y hxy a ha b hb
      have ha := List.mem_filter.1 ha
      have hb := List.mem_filter.1 hb
      have h1 := hgt x a ha.1
      have h2 := hgt y b hb.1
      have h3 := of_decide_eq_true ha.2
      have h4 := of_decide_eq_true hb.2
      omega
  · rw [List.flatMap_assoc, List.filter_flatMap]
    have : (d.pds.zipIdx.flatMap (fun a => ((pdSteps d k p0 a).flatMap (fun s => s.out (idOf L s.gl) (idOf L s.pl))).filter
        (fun r => decide (0 ≤ r.row.gt)))) = [] := by
      rw [List.flatMap_eq_nil_iff]
      intro y _
      rw [List.filter_eq_nil_iff]
      intro r hr
      have := hpd y r hr
      simp [this]
    rw [this]
    exact List.Pairwise.nil

/-- Among equally ranked rows of a prediction the one that is chosen comes first. -/
theorem chosen_first {rows : List Row} (hok : ∀ r ∈ rows, RowOk r) (hasc : (rows.filter (fun r => decide (0 ≤ r.gt))).Pairwise (fun a b => a.gt ≤ b.gt))
    {r c : Row} (hr : r ∈ chosen rows) (hm : Matches r) (hc : c ∈ rows) (hcm : Matches c) (hp : pdKey c = pdKey r) (hk : rankKey c = rankKey r) :
    r.gt ≤ c.gt := by
  have hok' : ∀ r ∈ sortBy rankKey rows, RowOk r := fun r h => hok r (mem_sortBy.1 h)
  have hkr := (mem_kept hok').1 (uniqueFirst_mem hr)
  have hck : c ∈ kept (sortBy rankKey rows) := by
    rw [mem_kept hok', mem_sortBy]
    exact ⟨hc, by rw [(pdKey_iff.1 hp).2.1]; exact hkr.2.1, Or.inl hcm⟩
  have hf := mem_uniqueFirst.1 hr
  have hf2 : (kept (sortBy rankKey rows)).find? (fun x => decide (rankKey x = rankKey r) && (decide (pdKey x = pdKey r) && decide (0 ≤ x.gt))) = some r := by
    rw [List.find?_eq_some_iff_append] at hf ⊢
    obtain ⟨_, as, bs, he, hn⟩ := hf
    refine ⟨by simp [hm.1], as, bs, he, ?_⟩
    intro a ha
    have := hn a ha
    simp only [Bool.not_eq_true', decide_eq_false_iff_not] at this
    simp [this]
  rw [← List.head?_filter] at hf2
  have hsub : ((kept (sortBy rankKey rows)).filter (fun x => decide (rankKey x = rankKey r) && (decide (pdKey x = pdKey r) && decide (0 ≤ x.gt)))).Sublist
      (rows.filter (fun r => decide (0 ≤ r.gt))) := by
    have h1 : ((kept (sortBy rankKey rows)).filter (fun x => decide (rankKey x = rankKey r) && (decide (pdKey x = pdKey r) && decide (0 ≤ x.gt)))).Sublist
        ((sortBy rankKey rows).filter (fun x => decide (rankKey x = rankKey r) && (decide (pdKey x = pdKey r) && decide (0 ≤ x.gt)))) := by
      apply List.Sublist.filter
      unfold kept
      exact (List.filter_sublist).trans List.filter_sublist
    refine h1.trans ?_
    have e : (sortBy rankKey rows).filter (fun x => decide (rankKey x = rankKey r) && (decide (pdKey x = pdKey r) && decide (0 ≤ x.gt)))
        = (rows.filter (fun x => decide (rankKey x = rankKey r))).filter (fun x => decide (pdKey x = pdKey r) && decide (0 ≤ x.gt)) := by
      have hst : rows.filter (fun x => decide (rankKey x = rankKey r)) = (sortBy rankKey rows).filter (fun x => decide (rankKey x = rankKey r)) := by
        convert (sortBy_stable rankKey rows (rankKey r)).symm
      rw [hst, List.filter_filter]
      apply List.filter_congr
      intro x _
      rw [Bool.and_comm]
    rw [e, List.filter_filter]
    exact List.monotone_filter_right _ (fun x => by simp; tauto)
  have hpw := hasc.sublist hsub
  have hcin : c ∈ (kept (sortBy rankKey rows)).filter (fun x => decide (rankKey x = rankKey r) && (decide (pdKey x = pdKey r) && decide (0 ≤ x.gt))) := by
    rw [List.mem_filter]
    exact ⟨hck, by simp [hp, hk, hcm.1]⟩
  cases hl : (kept (sortBy rankKey rows)).filter (fun x => decide (rankKey x = rankKey r) && (decide (pdKey x = pdKey r) && decide (0 ≤ x.gt))) with
  | nil => rw [hl] at hcin; cases hcin
  | cons y l =>
    rw [hl] at hcin hpw hf2
    have : y = r := by simpa using hf2
    subst this
    rcases List.mem_cons.1 hcin with rfl | h
    · exact le_refl _
    · exact (List.pairwise_cons.1 hpw).1 c h

/-! ## The rows of one detection -/

theorem alone_rows (x : Det × (Nat → Nat → Rat)) :
    loaderRows [[x]] = (rowsOf (Loader.init.addAll [[x]]).labels x.1 x.2 0 0 0).map FRow.row := by
  rw [← loaderPieces_flatten, loaderPieces_eq]
  simp [gtOffset, pdOffset]

theorem alone_asc (x : Det × (Nat → Nat → Rat)) :
    ((loaderRows [[x]]).filter (fun r => decide (0 ≤ r.gt))).Pairwise (fun a b => a.gt ≤ b.gt) := by
  rw [alone_rows, List.filter_map, List.pairwise_map]
  exact rowsOf_asc _ _ _ _ _ _

theorem mem_alone {x : Det × (Nat → Nat → Rat)} {r : Row} :
    r ∈ loaderRows [[x]] ↔ ∃ f, IsRow (Loader.init.addAll [[x]]).labels x.1 x.2 0 0 0 f ∧ f.row = r := by
  rw [alone_rows, List.mem_map]
  simp only [mem_rowsOf]

theorem nearest_unique {x : Det × (Nat → Nat → Rat)} {v : String} {p g g' : Nat} (h : Nearest x v p g) (h' : Nearest x v p g') : g = g' := by
  obtain ⟨⟨b, hb, hl⟩, _, hbest⟩ := h
  obtain ⟨⟨b', hb', hl'⟩, _, hbest'⟩ := h'
  rcases Nat.lt_trichotomy g g' with hlt | he | hlt
  · exact absurd ((hbest' g b hb hl).2 hlt) (not_lt.2 (hbest g' b' hb' hl').1)
  · exact he
  · exact absurd ((hbest g' b' hb' hl').2 hlt) (not_lt.2 (hbest' g b hb hl).1)

/-- The score in a row is the score of the label. -/
theorem scoreOf_zip {a : Ann} (hn : a.labels.Nodup) {v : String} {c : Rat} (h : (v, c) ∈ a.labels.zip a.scores) : scoreOf v a = c := by
  unfold scoreOf
  have key : ∀ (l : List String) (m : List Rat), l.Nodup → (v, c) ∈ l.zip m → (l.zip m).lookup v = some c := by
    intro l
    induction l with
    | nil => intro m _ h; simp at h
    | cons w l ih =>
      intro m hn h
      cases m with
      | nil => simp at h
      | cons d m =>
        rw [List.nodup_cons] at hn
        rw [List.zip_cons_cons, List.mem_cons] at h
        rw [List.zip_cons_cons, List.lookup_cons]
        rcases h with h | h
        · obtain ⟨rfl, rfl⟩ := Prod.mk.inj h
          simp
        · have hne : (v == w) = false := by
            rw [beq_eq_false_iff_ne]
            intro he
            subst he
            exact hn.1 (List.of_mem_zip h).1
          rw [hne]
          exact ih m hn.2 h
  rw [key _ _ hn h]
  rfl

theorem zip_scoreOf {a : Ann} (hn : a.labels.Nodup) (hs : a.scores.length = a.labels.length) {v : String} (h : v ∈ a.labels) :
    (v, scoreOf v a) ∈ a.labels.zip a.scores := by
  obtain ⟨i, hi, rfl⟩ := List.getElem_of_mem h
  have hz : (a.labels[i], a.scores[i]'(by omega)) ∈ a.labels.zip a.scores := by
    rw [← List.getElem_zip (i := i) (h := by simp; omega)]
    exact List.getElem_mem _
  rw [scoreOf_zip hn hz]
  exact hz

/-- What a row with a prediction says: prediction `p` of the detection, with a label and its score. -/
structure PdOf (x : Det × (Nat → Nat → Rat)) (r : Row) (p : Nat) (a : Ann) (v : String) : Prop where
  pds : x.1.pds[p]? = some a
  label : v ∈ a.labels
  datum : r.datum = 0
  pd : r.pd = p
  pl : r.pl = labelId [[x]] v
  score : r.score = scoreOf v a
  known : v ∈ (Loader.init.addAll [[x]]).labels

/-- What a row with a ground truth says. -/
structure GtOf (x : Det × (Nat → Nat → Rat)) (r : Row) (g p : Nat) (w : String) : Prop where
  gts : ∃ b, x.1.gts[g]? = some b ∧ b.labels = [w]
  gt : r.gt = g
  gl : r.gl = labelId [[x]] w
  iou : r.iou = x.2 p g
  eps : EPSILON ≤ x.2 p g
  known : w ∈ (Loader.init.addAll [[x]]).labels

theorem row_known {x : Det × (Nat → Nat → Rat)} {f : FRow} (hf : IsRow (Loader.init.addAll [[x]]).labels x.1 x.2 0 0 0 f) :
    (∀ v, f.gtLabel = some v → v ∈ (Loader.init.addAll [[x]]).labels) ∧ (∀ v, f.pdLabel = some v → v ∈ (Loader.init.addAll [[x]]).labels) :=
  isRow_labels [[x]] (k := 0) (x := x) rfl hf

theorem alonePd_row {x : Det × (Nat → Nat → Rat)} (hH : HistoryOk [x]) (hD : DistinctLabels [x]) {r : Row} (hr : r ∈ loaderRows [[x]]) (hp : 0 ≤ r.pd) :
    ∃ p a v, PdOf x r p a v ∧ (0 ≤ r.gt → ∃ g w, GtOf x r g p w) := by
  obtain ⟨f, hf, rfl⟩ := mem_alone.1 hr
  obtain ⟨l1, l2⟩ := row_known hf
  rcases hf with ⟨_, _, _, _, rfl⟩ | ⟨p, a, v, c, ha, hz, _, rfl⟩ | ⟨g, b, p, a, w, v, c, hb, ha, heps, hw, hz, rfl⟩
  · simp [gtRow] at hp
  · have hn := hD x (by simp) a (List.mem_of_getElem? ha)
    refine ⟨p, a, v, ⟨ha, (List.of_mem_zip hz).1, rfl, ?_, rfl, (scoreOf_zip hn hz).symm, l2 _ rfl⟩, ?_⟩
    · simp [pdRow]
    · intro h0
      simp [pdRow] at h0
  · have hn := hD x (by simp) a (List.mem_of_getElem? ha)
    refine ⟨p, a, v, ⟨ha, (List.of_mem_zip hz).1, rfl, ?_, rfl, (scoreOf_zip hn hz).symm, l2 _ rfl⟩, ?_⟩
    · simp [pairRow]
    · intro _
      have hone := hH.gtLabel x (by simp) b (List.mem_of_getElem? hb)
      obtain ⟨w', hw'⟩ := List.length_eq_one_iff.1 hone
      have : w = w' := by rw [hw'] at hw; simpa using hw
      subst this
      exact ⟨g, w, ⟨b, hb, hw'⟩, by simp [pairRow], rfl, rfl, heps, l1 _ rfl⟩

theorem alonePair_row {x : Det × (Nat → Nat → Rat)} (hH : HistoryOk [x]) (hD : DistinctLabels [x]) {p g : Nat} {a b : Ann} {v w : String}
    (ha : x.1.pds[p]? = some a) (hv : v ∈ a.labels) (hb : x.1.gts[g]? = some b) (hw : b.labels = [w]) (heps : EPSILON ≤ x.2 p g) :
    ∃ r ∈ loaderRows [[x]], PdOf x r p a v ∧ GtOf x r g p w := by
  have ham := List.mem_of_getElem? ha
  have hz := zip_scoreOf (hD x (by simp) a ham) (hH.pdLabel x (by simp) a ham).2 hv
  have hf : IsRow (Loader.init.addAll [[x]]).labels x.1 x.2 0 0 0 _ := Or.inr (Or.inr ⟨g, b, p, a, w, _, _, hb, ha, heps, by rw [hw]; simp, hz, rfl⟩)
  obtain ⟨l1, l2⟩ := row_known hf
  exact ⟨_, mem_alone.2 ⟨_, hf, rfl⟩, ⟨ha, hv, rfl, by simp [pairRow], rfl, rfl, l2 _ rfl⟩, ⟨⟨b, hb, hw⟩, by simp [pairRow], rfl, rfl, heps, l1 _ rfl⟩⟩

theorem aloneLone_row {x : Det × (Nat → Nat → Rat)} (hH : HistoryOk [x]) (hD : DistinctLabels [x]) {p : Nat} {a : Ann} {v : String}
    (ha : x.1.pds[p]? = some a) (hv : v ∈ a.labels) (hal : PdAlone x.1 x.2 p) : ∃ r ∈ loaderRows [[x]], PdOf x r p a v := by
  have ham := List.mem_of_getElem? ha
  have hz := zip_scoreOf (hD x (by simp) a ham) (hH.pdLabel x (by simp) a ham).2 hv
  have hf : IsRow (Loader.init.addAll [[x]]).labels x.1 x.2 0 0 0 _ := Or.inr (Or.inl ⟨p, a, _, _, ha, hz, hal, rfl⟩)
  obtain ⟨_, l2⟩ := row_known hf
  exact ⟨_, mem_alone.2 ⟨_, hf, rfl⟩, ⟨ha, hv, rfl, by simp [pdRow], rfl, rfl, l2 _ rfl⟩⟩

theorem PdOf.unique {x : Det × (Nat → Nat → Rat)} {r : Row} {p p' : Nat} {a a' : Ann} {v v' : String} (h : PdOf x r p a v) (h' : PdOf x r p' a' v') :
    p = p' ∧ a = a' ∧ v = v' := by
  have hp : p = p' := by have := h.pd.symm.trans h'.pd; omega
  subst hp
  refine ⟨rfl, Option.some.inj (h.pds.symm.trans h'.pds), ?_⟩
  have := h.pl.symm.trans h'.pl
  exact (idxOf_eq_iff h.known).1 this

theorem PdOf.same {x : Det × (Nat → Nat → Rat)} {r c : Row} {p : Nat} {a a' : Ann} {v : String} (h : PdOf x r p a v) (h' : PdOf x c p a' v) :
    SamePrediction c r ∧ c.score = r.score := by
  have : a = a' := Option.some.inj (h.pds.symm.trans h'.pds)
  subst this
  exact ⟨⟨by rw [h.datum, h'.datum], by rw [h.pd, h'.pd], by rw [h.pl, h'.pl]⟩, by rw [h.score, h'.score]⟩

theorem PdOf.of_same {x : Det × (Nat → Nat → Rat)} {r c : Row} {p p' : Nat} {a a' : Ann} {v v' : String} (h : PdOf x r p a v) (h' : PdOf x c p' a' v')
    (hs : SamePrediction c r) : p' = p ∧ a' = a ∧ v' = v := by
  have hp : p' = p := by have := hs.2.1; rw [h.pd, h'.pd] at this; omega
  subst hp
  refine ⟨rfl, Option.some.inj (h'.pds.symm.trans h.pds), ?_⟩
  have := hs.2.2
  rw [h.pl, h'.pl] at this
  exact (idxOf_eq_iff h'.known).1 this

theorem matches_label {x : Det × (Nat → Nat → Rat)} {r : Row} {p g : Nat} {a : Ann} {v w : String} (h : PdOf x r p a v) (h' : GtOf x r g p w) :
    Matches r ↔ w = v := by
  constructor
  · intro hm
    have := hm.2
    rw [h.pl, h'.gl] at this
    exact (idxOf_eq_iff h'.known).1 this
  · rintro rfl
    exact ⟨by rw [h'.gt]; omega, by rw [h.pl, h'.gl]⟩

/-! ## What is chosen -/

theorem chosen_ranked {rows : List Row} {r : Row} : r ∈ ranked rows ↔ r ∈ chosen rows := by
  rw [ranked_chosen]
  exact (lexsort_perm rankKey _).mem_iff

/-- A matching row that is chosen pairs the prediction with its nearest ground truth. -/
theorem alone_nearest {x : Det × (Nat → Nat → Rat)} (hH : HistoryOk [x]) (hD : DistinctLabels [x]) (hS : SizesOk (Loader.init.addAll [[x]])) {r : Row}
    (hr : r ∈ chosen (loaderRows [[x]])) (hm : Matches r) : ∃ g p a v, PdOf x r p a v ∧ GtOf x r g p v ∧ Nearest x v p g := by
  have hH' : HistoryOk ([[x]] : List History).flatten := hH
  have hok := (loader_ok hH' hS).1.form
  obtain ⟨hrm, hpd, hbest⟩ := C26_best _ hok (chosen_ranked.2 hr)
  obtain ⟨p, a, v, hpo, hgt⟩ := alonePd_row hH hD hrm hpd
  obtain ⟨g, w, hgo⟩ := hgt hm.1
  have := (matches_label hpo hgo).1 hm
  subst this
  refine ⟨g, p, a, w, hpo, hgo, hgo.gts, hgo.eps, ?_⟩
  intro g' b' hb' hlab'
  by_cases heps : EPSILON ≤ x.2 p g'
  · obtain ⟨c, hcm, hcp, hcg⟩ := alonePair_row hH hD hpo.pds hpo.label hb' hlab' heps
    have hmc := (matches_label hcp hcg).2 rfl
    obtain ⟨hcr, hsc⟩ := hpo.same hcp
    have hle : x.2 p g' ≤ x.2 p g := by
      rcases (hbest c hcm hcr).2 ⟨fun _ => hm, fun _ => hmc⟩ with h2 | ⟨_, h2⟩
      · rw [hsc] at h2
        exact absurd h2 (lt_irrefl _)
      · rw [hcg.iou, hgo.iou] at h2
        exact h2
    refine ⟨hle, ?_⟩
    intro hlt
    refine lt_of_le_of_ne hle ?_
    intro he
    have hkey : rankKey c = rankKey r := by
      unfold rankKey
      rw [hsc, hcg.iou, hgo.iou, he]
    have := chosen_first hok (alone_asc x) hr hm hcm hmc (pdKey_iff.2 hcr) hkey
    rw [hgo.gt, hcg.gt] at this
    omega
  · have hlt := lt_of_lt_of_le (not_le.1 heps) hgo.eps
    exact ⟨le_of_lt hlt, fun _ => hlt⟩

/-- A prediction with a nearest ground truth is chosen with it. -/
theorem nearest_chosen {x : Det × (Nat → Nat → Rat)} (hH : HistoryOk [x]) (hD : DistinctLabels [x]) (hS : SizesOk (Loader.init.addAll [[x]])) {p g : Nat}
    {a : Ann} {v : String} (ha : x.1.pds[p]? = some a) (hv : v ∈ a.labels) (h : Nearest x v p g) :
    ∃ r ∈ chosen (loaderRows [[x]]), Matches r ∧ PdOf x r p a v ∧ GtOf x r g p v := by
  have hH' : HistoryOk ([[x]] : List History).flatten := hH
  have hok := (loader_ok hH' hS).1.form
  have hn := h
  obtain ⟨⟨b, hb, hlab⟩, heps, _⟩ := h
  obtain ⟨c, hcm, hcp, hcg⟩ := alonePair_row hH hD ha hv hb hlab heps
  have hmc := (matches_label hcp hcg).2 rfl
  obtain ⟨q, hq, hqs⟩ := (ranked_has _ hok (x := c)).2 ⟨c, hcm, ⟨rfl, rfl, rfl⟩, by rw [hcp.pd]; omega, Or.inl hmc⟩
  have hqm := ((C26_best _ hok hq).2.2 c hcm ⟨hqs.1.symm, hqs.2.1.symm, hqs.2.2.symm⟩).1 hmc
  have hq' := chosen_ranked.1 hq
  obtain ⟨g', p', a', v', hpo, hgo, hn'⟩ := alone_nearest hH hD hS hq' hqm
  obtain ⟨rfl, rfl, rfl⟩ := hcp.of_same hpo hqs
  have := nearest_unique hn' hn
  subst this
  exact ⟨q, hq', hqm, hpo, hgo⟩

/-- The ground truths that are found in a single detection. -/
theorem alone_found {x : Det × (Nat → Nat → Rat)} (hH : HistoryOk [x]) (hD : DistinctLabels [x]) (hS : SizesOk (Loader.init.addAll [[x]])) {t : Rat}
    (ht : 0 < t) (s : Rat) (v : String) : foundOf t s (labelId [[x]] v) (loaderRows [[x]]) = hitCount x t s v := by
  classical
  unfold foundOf hitCount distinct
  rw [if_pos ht]
  have hnd : (((List.range x.1.gts.length).filter (fun g => decide (Hit x t s v g))).map (fun g : Nat => ((0 : Int), (g : Int)))).Nodup := by
    apply List.Nodup.map
    · intro a b hab
      simpa using hab
    · exact (List.nodup_range).filter _
  rw [← List.length_map (f := fun g : Nat => ((0 : Int), (g : Int))), ← hnd.dedup]
  refine (dedup_length_congr ?_).trans (by congr!)
  rintro ⟨d, z⟩
  simp only [List.mem_map, List.mem_filter, decide_eq_true_eq, List.mem_range, Prod.mk.injEq]
  constructor
  · rintro ⟨r, ⟨hr, ⟨hl, hs, he⟩, hm, hti⟩, rfl, rfl⟩
    obtain ⟨g, p, a, v', hpo, hgo, hn⟩ := alone_nearest hH hD hS hr hm
    have hvv : v' = v := by
      rw [hpo.pl] at hl
      exact (idxOf_eq_iff hpo.known).1 hl
    subst hvv
    obtain ⟨b, hb, _⟩ := hgo.gts
    refine ⟨g, ⟨(List.getElem?_eq_some_iff.1 hb).1, p, ⟨a, hpo.pds, hpo.label, ?_, ?_⟩, hn, ?_⟩, hpo.datum.symm, hgo.gt.symm⟩
    · rw [← hpo.score]; exact hs
    · rw [← hpo.score]; exact he
    · rw [← hgo.iou]; exact hti
  · rintro ⟨g, ⟨_, p, ⟨a, ha, hv, hs, he⟩, hn, hti⟩, rfl, rfl⟩
    obtain ⟨r, hr, hm, hpo, hgo⟩ := nearest_chosen hH hD hS ha hv hn
    refine ⟨r, ⟨hr, ⟨hpo.pl, ?_, ?_⟩, hm, ?_⟩, hpo.datum, hgo.gt⟩
    · rw [hpo.score]; exact hs
    · rw [hpo.score]; exact he
    · rw [hgo.iou]; exact hti

/-- The predictions that are counted in a single detection. -/
theorem alone_active {x : Det × (Nat → Nat → Rat)} (hH : HistoryOk [x]) (hD : DistinctLabels [x]) (hS : SizesOk (Loader.init.addAll [[x]]))
    (s : Rat) (v : String) : activeOf s (labelId [[x]] v) (loaderRows [[x]]) = pdCount x s v := by
  classical
  have hH' : HistoryOk ([[x]] : List History).flatten := hH
  have hok := (loader_ok hH' hS).1.form
  have hok' : ∀ r ∈ sortBy rankKey (loaderRows [[x]]), RowOk r := fun r h => hok r (mem_sortBy.1 h)
  unfold activeOf pdCount
  rw [← List.length_map (f := Row.pd), ← List.length_map (as := List.filter _ (List.range x.1.pds.length)) (f := fun p : Nat => (p : Int))]
  apply List.Perm.length_eq
  rw [List.perm_ext_iff_of_nodup]
  · intro z
    simp only [List.mem_map, List.mem_filter, decide_eq_true_eq, List.mem_range]
    constructor
    · rintro ⟨r, ⟨hr, hl, hs, he⟩, rfl⟩
      have hk := (mem_kept hok').1 (uniqueFirst_mem hr)
      rw [mem_sortBy] at hk
      obtain ⟨hrm, hp0, hor⟩ := hk
      obtain ⟨p, a, v', hpo, hgt⟩ := alonePd_row hH hD hrm hp0
      have hvv : v' = v := by
        rw [hpo.pl] at hl
        exact (idxOf_eq_iff hpo.known).1 hl
      subst hvv
      refine ⟨p, ⟨(List.getElem?_eq_some_iff.1 hpo.pds).1, ⟨a, hpo.pds, hpo.label, by rw [← hpo.score]; exact hs, by rw [← hpo.score]; exact he⟩, ?_⟩, hpo.pd.symm⟩
      rcases hor with hm | hno
      · left
        obtain ⟨g, w, hgo⟩ := hgt hm.1
        have := (matches_label hpo hgo).1 hm
        subst this
        obtain ⟨b, hb, hlab⟩ := hgo.gts
        exact ⟨g, b, hb, hlab, hgo.eps⟩
      · right
        rintro a' ha' w hw ⟨g, b, hb, hlab, heps⟩
        have : a' = a := Option.some.inj (ha'.symm.trans hpo.pds)
        subst this
        obtain ⟨c, hcm, hcp, hcg⟩ := alonePair_row hH hD hpo.pds hw hb hlab heps
        exact hno c (mem_sortBy.2 hcm) (by rw [hcp.pd, hpo.pd]) ((matches_label hcp hcg).2 rfl)
    · rintro ⟨p, ⟨_, ⟨a, ha, hv, hs, he⟩, hor⟩, rfl⟩
      have hkey : ∃ c ∈ kept (sortBy rankKey (loaderRows [[x]])), PdOf x c p a v := by
        rcases hor with ⟨g, b, hb, hlab, heps⟩ | hno
        · obtain ⟨c, hcm, hcp, hcg⟩ := alonePair_row hH hD ha hv hb hlab heps
          refine ⟨c, ?_, hcp⟩
          rw [mem_kept hok', mem_sortBy]
          exact ⟨hcm, by rw [hcp.pd]; omega, Or.inl ((matches_label hcp hcg).2 rfl)⟩
        · have hnone : ∀ d ∈ loaderRows [[x]], d.pd = p → ¬ Matches d := by
            intro d hd hdp hm
            obtain ⟨p', a', w, hpo, hgt⟩ := alonePd_row hH hD hd (by rw [hdp]; omega)
            obtain ⟨g, w', hgo⟩ := hgt hm.1
            have := (matches_label hpo hgo).1 hm
            subst this
            have hpp : p' = p := by have := hpo.pd; rw [hdp] at this; omega
            subst hpp
            obtain ⟨b, hb, hlab⟩ := hgo.gts
            exact hno a' hpo.pds w' hpo.label ⟨g, b, hb, hlab, hgo.eps⟩
          have hrow : ∃ c ∈ loaderRows [[x]], PdOf x c p a v := by
            by_cases hal : PdAlone x.1 x.2 p
            · exact aloneLone_row hH hD ha hv hal
            · unfold PdAlone at hal
              push Not at hal
              obtain ⟨g, hg, heps⟩ := hal
              have hb : x.1.gts[g]? = some x.1.gts[g] := List.getElem?_eq_getElem hg
              obtain ⟨w, hw⟩ := List.length_eq_one_iff.1 (hH.gtLabel x (by simp) _ (List.mem_of_getElem? hb))
              obtain ⟨c, hcm, hcp, _⟩ := alonePair_row hH hD ha hv hb hw heps
              exact ⟨c, hcm, hcp⟩
          obtain ⟨c, hcm, hcp⟩ := hrow
          refine ⟨c, ?_, hcp⟩
          rw [mem_kept hok', mem_sortBy]
          refine ⟨hcm, by rw [hcp.pd]; omega, Or.inr ?_⟩
          intro d hd hdp
          exact hnone d (mem_sortBy.1 hd) (by rw [hdp, hcp.pd])
      obtain ⟨c, hc, hcp⟩ := hkey
      obtain ⟨r, hr, hkey⟩ := uniqueFirst_has (key := pdKey) hc
      have hs' := pdKey_iff.1 hkey
      have hrm : r ∈ loaderRows [[x]] := chosen_mem hr
      obtain ⟨p', a', v', hpo, _⟩ := alonePd_row hH hD hrm (by rw [hs'.2.1, hcp.pd]; omega)
      obtain ⟨rfl, rfl, rfl⟩ := hcp.of_same hpo hs'
      exact ⟨r, ⟨hr, hpo.pl, by rw [hpo.score]; exact hs, by rw [hpo.score]; exact he⟩, hpo.pd⟩
  · rw [List.nodup_map_iff_inj_on]
    · intro r hr q hq he
      simp only [List.mem_filter, decide_eq_true_eq] at hr hq
      have hk := (mem_kept hok').1 (uniqueFirst_mem hr.1)
      have hk' := (mem_kept hok').1 (uniqueFirst_mem hq.1)
      obtain ⟨_, _, _, h1, _⟩ := alonePd_row hH hD (mem_sortBy.1 hk.1) hk.2.1
      obtain ⟨_, _, _, h2, _⟩ := alonePd_row hH hD (mem_sortBy.1 hk'.1) hk'.2.1
      have : pdKey r = pdKey q := pdKey_iff.2 ⟨by rw [h1.datum, h2.datum], he, by rw [hr.2.1, hq.2.1]⟩
      exact List.inj_on_of_nodup_map (uniqueFirst_nodup pdKey _) hr.1 hq.1 this
    · exact (List.Nodup.of_map pdKey (uniqueFirst_nodup pdKey _)).filter _
  · apply List.Nodup.map
    · intro a b hab
      simpa using hab
    · exact (List.nodup_range).filter _

/-! ## The counts of a dataset -/

/-- **C54 (exact counts).** For predictions without repeated labels, all thresholds and every label, the counts are these functions of the
annotations that were added: the ground truths of the label; as true positives, the ground truths that are the nearest one of a passing
prediction with IoU at least the threshold (none for a threshold that is not positive); as true and false positives together, the passing
predictions that overlap a ground truth of the label or none of any of their labels; as false negatives, the remaining ground truths. -/
theorem C54_exact (e : Built) (hH : HistoryOk e.calls.flatten) (hD : DistinctLabels e.calls.flatten) (hS : SizesOk (Loader.init.addAll e.calls))
    (t s : Rat) (v : String) :
    e.gt v = gtNumber e.calls.flatten v ∧ e.tp t s v + e.fp t s v = (e.calls.flatten.map (fun x => pdCount x s v)).sum ∧
    e.fn t s v + e.tp t s v = e.gt v ∧
    (0 < t → e.tp t s v = (e.calls.flatten.map (fun x => hitCount x t s v)).sum) ∧ (t ≤ 0 → e.tp t s v = 0) := by
  have hold := holding_of_stored e.stored.stored
  have hg := C54_groundtruths hold hH hS.labels v
  rw [selected_all] at hg
  obtain ⟨_, a2, a3⟩ := e.counts_alone hH hS t s v
  have one : ∀ x ∈ e.calls.flatten, HistoryOk [x] ∧ DistinctLabels [x] ∧ SizesOk (Loader.init.addAll [[x]]) := by
    intro x hx
    have hsub : ([x] : History).Subperm e.calls.flatten := List.singleton_subperm_iff.2 hx
    exact ⟨historyOk_sub hH (fun y hy => hsub.subset hy), fun y hy => hD y (hsub.subset hy), sizesOk_sub (part := [[x]]) hH hS hsub⟩
  refine ⟨hg, ?_, e.fn_eq hH hS t s v, ?_, ?_⟩
  · rw [a3]
    congr 1
    apply List.map_congr_left
    intro x hx
    obtain ⟨q1, q2, q3⟩ := one x hx
    exact alone_active q1 q2 q3 s v
  · intro ht
    rw [a2]
    congr 1
    apply List.map_congr_left
    intro x hx
    obtain ⟨q1, q2, q3⟩ := one x hx
    exact alone_found q1 q2 q3 ht s v
  · intro ht
    rw [a2]
    have : (fun x => foundOf t s (labelId [[x]] v) (loaderRows [[x]])) = fun _ : Det × (Nat → Nat → Rat) => 0 := by
      funext x
      unfold foundOf
      rw [if_neg (not_lt.2 ht)]
    rw [this, List.map_const', List.sum_replicate, smul_zero]

end Verif.Detection
