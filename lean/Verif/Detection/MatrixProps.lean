import Mathlib.Data.Prod.Lex
import Mathlib.Data.Finset.Max
import Mathlib.Data.Finset.Prod
import Verif.Detection.CmExampleProps
import Verif.Detection.AddedProps

/-!
# C115, C116: the confusion matrix of the annotations, their order, and exchanged roles

(`object_detection/computation.py` 628-890, `object_detection/evaluator.py` 496-602)
-/

namespace Verif.Detection

open Verif.Cache (sortBy)

/-! ## The greedy choice is determined -/

/-- The score of a prediction. -/
def scoreAt (x : Det × (Nat → Nat → Rat)) (p : Nat) : Rat := ((x.1.pds[p]?).map (fun a => a.scores.headD 0)).getD 0

/-- Overlapping pairs that share an annotation differ in score or overlap. -/
def ClearOrder (x : Det × (Nat → Nat → Rat)) : Prop :=
  ∀ g p g' p', g < x.1.gts.length → p < x.1.pds.length → g' < x.1.gts.length → p' < x.1.pds.length →
    EPSILON ≤ x.2 p g → EPSILON ≤ x.2 p' g' → (g' = g ∨ p' = p) → scoreAt x p = scoreAt x p' → x.2 p g = x.2 p' g' → g' = g ∧ p' = p

theorem scoreAt_eq {x : Det × (Nat → Nat → Rat)} {p : Nat} {a : Ann} (h : x.1.pds[p]? = some a) : scoreAt x p = a.scores.headD 0 := by
  unfold scoreAt
  rw [h]
  rfl

theorem Greedy.best_lex {x : Det × (Nat → Nat → Rat)} {G : Nat → Nat → Bool} (hG : Greedy x G) {g p : Nat} (hg : g < x.1.gts.length)
    (hp : p < x.1.pds.length) (hi : EPSILON ≤ x.2 p g) : ∃ g' p', G g' p' = true ∧ (g' = g ∨ p' = p) ∧
      toLex (scoreAt x p, x.2 p g) ≤ toLex (scoreAt x p', x.2 p' g') := by
  obtain ⟨g', p', pa', h1, h2, h3, h4⟩ := hG.best g _ p _ (List.getElem?_eq_getElem hg) (List.getElem?_eq_getElem hp) hi
  refine ⟨g', p', h1, h3, ?_⟩
  rw [Prod.Lex.toLex_le_toLex, scoreAt_eq h2, scoreAt_eq (List.getElem?_eq_getElem hp)]
  exact h4

/-- Two choices of pairs agree if every pair in which they differ is outranked by another one. -/
theorem unique_of_rank {x : Det × (Nat → Nat → Rat)} {G G' : Nat → Nat → Bool} {β : Type} [LinearOrder β] {rank : Nat → Nat → β}
    (hG : ∀ g p, G g p = true → g < x.1.gts.length ∧ p < x.1.pds.length ∧ EPSILON ≤ x.2 p g)
    (hG' : ∀ g p, G' g p = true → g < x.1.gts.length ∧ p < x.1.pds.length ∧ EPSILON ≤ x.2 p g)
    (h1 : ∀ g p, G g p = true → G' g p = false → ∃ g' p', G g' p' = false ∧ G' g' p' = true ∧ rank g p < rank g' p')
    (h2 : ∀ g p, G' g p = true → G g p = false → ∃ g' p', G' g' p' = false ∧ G g' p' = true ∧ rank g p < rank g' p') : G = G' := by
  by_contra hne
  let S := ((Finset.range x.1.gts.length) ×ˢ (Finset.range x.1.pds.length)).filter (fun y => G y.1 y.2 ≠ G' y.1 y.2)
  have hmem : ∀ g p, G g p ≠ G' g p → (g, p) ∈ S := by
    intro g p h
    have hr : g < x.1.gts.length ∧ p < x.1.pds.length := by
      cases h1 : G g p with
      | true => exact ⟨(hG g p h1).1, (hG g p h1).2.1⟩
      | false =>
        cases h2 : G' g p with
        | true => exact ⟨(hG' g p h2).1, (hG' g p h2).2.1⟩
        | false => rw [h1, h2] at h; exact absurd rfl h
    simp only [S, Finset.mem_filter, Finset.mem_product, Finset.mem_range]
    exact ⟨hr, h⟩
  have hS : S.Nonempty := by
    by_contra hS
    rw [Finset.not_nonempty_iff_eq_empty] at hS
    apply hne
    funext g p
    by_contra h
    have := hmem g p h
    rw [hS] at this
    exact absurd this (Finset.notMem_empty _)
  obtain ⟨⟨g, p⟩, hm, hmax⟩ := Finset.exists_max_image S (fun y => rank y.1 y.2) hS
  have hd : G g p ≠ G' g p := by
    simp only [S, Finset.mem_filter] at hm
    exact hm.2
  cases e1 : G g p with
  | true =>
    have e2 : G' g p = false := by
      cases e2 : G' g p with
      | false => rfl
      | true => rw [e1, e2] at hd; exact absurd rfl hd
    obtain ⟨g', p', a, b, c⟩ := h1 g p e1 e2
    exact absurd (hmax (g', p') (hmem g' p' (by rw [a, b]; decide))) (not_le.2 c)
  | false =>
    have e2 : G' g p = true := by
      cases e2 : G' g p with
      | true => rfl
      | false => rw [e1, e2] at hd; exact absurd rfl hd
    obtain ⟨g', p', a, b, c⟩ := h2 g p e2 e1
    exact absurd (hmax (g', p') (hmem g' p' (by rw [a, b]; decide))) (not_le.2 c)

/-- Without ties every greedy choice is the same. -/
theorem greedy_unique {x : Det × (Nat → Nat → Rat)} (hc : ClearOrder x) {G G' : Nat → Nat → Bool} (hG : Greedy x G) (hG' : Greedy x G') :
    G = G' := by
  have key : ∀ {A B : Nat → Nat → Bool}, Greedy x A → Greedy x B → ∀ g p, A g p = true → B g p = false → ∃ g' p', A g' p' = false ∧ B g' p' = true ∧
      toLex (scoreAt x p, x.2 p g) < toLex (scoreAt x p', x.2 p' g') := by
    intro A B hA hB g p h1 h2
    obtain ⟨r1, r2, r3⟩ := hA.range g p h1
    obtain ⟨g', p', b1, b2, b3⟩ := hB.best_lex r1 r2 r3
    have hdiff : ¬ (g' = g ∧ p' = p) := by
      rintro ⟨rfl, rfl⟩
      rw [h2] at b1
      exact absurd b1 (by decide)
    refine ⟨g', p', ?_, b1, lt_of_le_of_ne b3 ?_⟩
    · cases h : A g' p' with
      | false => rfl
      | true => exact absurd (hA.one g' p' g p h h1 b2) hdiff
    · intro he
      obtain ⟨q1, q2, q3⟩ := hB.range g' p' b1
      have he' := toLex_inj.1 he
      rw [Prod.mk.injEq] at he'
      exact hdiff (hc g p g' p' r1 r2 q1 q2 r3 q3 b2 he'.1 he'.2)
  exact unique_of_rank (rank := fun g p => toLex (scoreAt x p, x.2 p g)) hG.range hG'.range (key hG hG') (key hG' hG)

/-! ## Ties are resolved by the listing -/

/-- The greedy matching: one to one among overlapping pairs; a pair that is left out shares an annotation with a chosen pair that has a higher score,
or the same score and a larger overlap, or the same score and overlap and comes first in the listing. -/
structure FirstListed (x : Det × (Nat → Nat → Rat)) (G : Nat → Nat → Bool) : Prop where
  range : ∀ g p, G g p = true → g < x.1.gts.length ∧ p < x.1.pds.length ∧ EPSILON ≤ x.2 p g
  one : ∀ g p g' p', G g p = true → G g' p' = true → (g = g' ∨ p = p') → g = g' ∧ p = p'
  best : ∀ g p, g < x.1.gts.length → p < x.1.pds.length → EPSILON ≤ x.2 p g → ∃ g' p', G g' p' = true ∧ (g' = g ∨ p' = p) ∧
    (scoreAt x p < scoreAt x p' ∨ (scoreAt x p = scoreAt x p' ∧ (x.2 p g < x.2 p' g' ∨ (x.2 p g = x.2 p' g' ∧ g' ≤ g ∧ p' ≤ p))))

theorem FirstListed.greedy {x : Det × (Nat → Nat → Rat)} {G : Nat → Nat → Bool} (h : FirstListed x G) : Greedy x G := by
  refine ⟨h.range, h.one, ?_⟩
  intro g ga p pa hga hpa hi
  obtain ⟨g', p', h1, h2, h3⟩ := h.best g p (List.getElem?_eq_some_iff.1 hga).1 (List.getElem?_eq_some_iff.1 hpa).1 hi
  have hp' := (h.range _ _ h1).2.1
  refine ⟨g', p', _, h1, List.getElem?_eq_getElem hp', h2, ?_⟩
  rw [scoreAt_eq hpa, scoreAt_eq (List.getElem?_eq_getElem hp')] at h3
  rcases h3 with h3 | ⟨h3, h4⟩
  · exact Or.inl h3
  · exact Or.inr ⟨h3, h4.elim le_of_lt (fun h => h.1.le)⟩

/-- There is only one greedy matching. -/
theorem firstListed_unique {x : Det × (Nat → Nat → Rat)} {G G' : Nat → Nat → Bool} (hG : FirstListed x G) (hG' : FirstListed x G') : G = G' := by
  have key : ∀ {A B : Nat → Nat → Bool}, FirstListed x A → FirstListed x B → ∀ g p, A g p = true → B g p = false → ∃ g' p', A g' p' = false ∧
      B g' p' = true ∧ toLex (scoreAt x p, toLex (x.2 p g, -((g : Int) + (p : Int)))) < toLex (scoreAt x p', toLex (x.2 p' g', -((g' : Int) + (p' : Int)))) := by
    intro A B hA hB g p h1 h2
    obtain ⟨r1, r2, r3⟩ := hA.range g p h1
    obtain ⟨g', p', b1, b2, b3⟩ := hB.best g p r1 r2 r3
    have hdiff : ¬ (g' = g ∧ p' = p) := by
      rintro ⟨rfl, rfl⟩
      rw [h2] at b1
      exact absurd b1 (by decide)
    refine ⟨g', p', ?_, b1, ?_⟩
    · cases h : A g' p' with
      | false => rfl
      | true => exact absurd (hA.one g' p' g p h h1 b2) hdiff
    · rw [Prod.Lex.toLex_lt_toLex, Prod.Lex.toLex_lt_toLex]
      rcases b3 with b3 | ⟨b3, b4 | ⟨b4, b5, b6⟩⟩
      · exact Or.inl b3
      · exact Or.inr ⟨b3, Or.inl b4⟩
      · refine Or.inr ⟨b3, Or.inr ⟨b4, ?_⟩⟩
        dsimp only
        omega
  exact unique_of_rank (rank := fun g p => toLex (scoreAt x p, toLex (x.2 p g, -((g : Int) + (p : Int))))) hG.range hG'.range (key hG hG') (key hG' hG)

/-- Pairs come in the order of the ground truths, and for one ground truth in the order of the predictions. -/
def PairOrder (a b : FRow) : Prop :=
  0 ≤ a.row.gt → 0 ≤ a.row.pd → 0 ≤ b.row.gt → 0 ≤ b.row.pd → a.row.gt < b.row.gt ∨ (a.row.gt = b.row.gt ∧ a.row.pd ≤ b.row.pd)

theorem zipIdx_asc {α : Type} (l : List α) : l.zipIdx.Pairwise (fun x y => x.2 < y.2) := by
  have : (l.zipIdx.map Prod.snd).Pairwise (· < ·) := by
    rw [List.zipIdx_map_snd]
    exact List.pairwise_lt_range'
  exact List.pairwise_map.1 this

theorem rowsOf_order (L : List String) (d : Det) (iou : Nat → Nat → Rat) (k g0 p0 : Nat) : (rowsOf L d iou k g0 p0).Pairwise PairOrder := by
  have hpd : ∀ (y : Ann × Nat) (r : FRow), r ∈ (pdSteps d k p0 y).flatMap (fun s => s.out (idOf L s.gl) (idOf L s.pl)) → r.row.gt = -1 := by
    intro y r hr
    obtain ⟨_, _, _, rfl⟩ := mem_pdSteps.1 hr
    rfl
  have hinner : ∀ (x y : Ann × Nat) (r : FRow), r ∈ ((if pdAlone d iou y.2 then pdSteps d k p0 y else []) ++
      (if EPSILON ≤ iou y.2 x.2 then x.1.labels.flatMap (fun glabel => (y.1.labels.zip y.1.scores).map (fun z =>
        (⟨some glabel, some z.1, fun gl pl =>
          [pairRow d k x.1 y.1 ((g0 + x.2 : Nat) : Int) ((p0 + y.2 : Nat) : Int) gl pl glabel z.1 (iou y.2 x.2) z.2]⟩ : Step))) else [])).flatMap
        (fun s => s.out (idOf L s.gl) (idOf L s.pl)) → (r.row.gt = ((g0 + x.2 : Nat) : Int) ∧ r.row.pd = ((p0 + y.2 : Nat) : Int)) ∨ r.row.gt = -1 := by
    intro x y r hr
    rw [List.flatMap_append, List.mem_append] at hr
    rcases hr with hr | hr
    · split at hr
      · exact Or.inr (hpd y r hr)
      · cases hr
    · split at hr
      · rw [List.flatMap_assoc, List.mem_flatMap] at hr
        obtain ⟨l, _, hr⟩ := hr
        rw [List.flatMap_map, List.mem_flatMap] at hr
        obtain ⟨z, _, hr⟩ := hr
        rw [List.mem_singleton] at hr
        subst hr
        exact Or.inl ⟨rfl, rfl⟩
      · cases hr
  have hgt : ∀ (x : Ann × Nat) (r : FRow), r ∈ (gtSteps d iou k g0 p0 x).flatMap (fun s => s.out (idOf L s.gl) (idOf L s.pl)) →
      r.row.gt = ((g0 + x.2 : Nat) : Int) ∨ r.row.gt = -1 := by
    intro x r hr
    unfold gtSteps at hr
    rw [List.flatMap_cons, List.mem_append] at hr
    rcases hr with hr | hr
    · dsimp only at hr
      split at hr
      · rw [List.mem_singleton] at hr
        subst hr
        exact Or.inl rfl
      · cases hr
    · rw [List.flatMap_assoc, List.mem_flatMap] at hr
      obtain ⟨y, _, hr⟩ := hr
      exact (hinner x y r hr).imp And.left id
  unfold rowsOf detSteps
  split
  · rw [List.flatMap_assoc, List.pairwise_flatMap]
    constructor
    · intro x _
      unfold gtSteps
      rw [List.flatMap_cons, List.pairwise_append]
      refine ⟨?_, ?_, ?_⟩
      · dsimp only
        split
        · exact List.pairwise_singleton _ _
        · exact List.Pairwise.nil
      · rw [List.flatMap_assoc, List.pairwise_flatMap]
        constructor
        · intro y _
          rw [List.pairwise_iff_forall_sublist]
          intro a b hab h1 h2 h3 h4
          have e1 := hinner x y a (hab.subset (by simp : a ∈ [a, b]))
          have e2 := hinner x y b (hab.subset (by simp : b ∈ [a, b]))
          omega
        · refine (zipIdx_asc d.pds).imp ?_
          intro y z hyz a ha b hb h1 h2 h3 h4
          have e1 := hinner x y a ha
          have e2 := hinner x z b hb
          omega
      · intro a ha b _ _ h2
        dsimp only at ha
        split at ha
        · rw [List.mem_singleton] at ha
          subst ha
          exact absurd (show (0 : Int) ≤ -1 from h2) (by decide)
        · cases ha
    · refine (zipIdx_asc d.gts).imp ?_
      intro x y hxy a ha b hb h1 h2 h3 h4
      have e1 := hgt x a ha
      have e2 := hgt y b hb
      omega
  · rw [List.flatMap_assoc, List.pairwise_iff_forall_sublist]
    intro a b hab h1
    obtain ⟨y, _, hy⟩ := List.mem_flatMap.1 (hab.subset (by simp : a ∈ [a, b]))
    have := hpd y a hy
    omega

/-- Rows of one key stay in order in a stable sort. -/
theorem sortBy_order {R : FRow → FRow → Prop} {l : List FRow} (h : l.Pairwise R) :
    (sortBy fKey l).Pairwise (fun a b => fKey a = fKey b → R a b) := by
  rw [List.pairwise_iff_forall_sublist]
  intro a b hab he
  have h1 := hab.filter (fun x => decide (fKey x = fKey a))
  have h2 : (sortBy fKey l).filter (fun x => decide (fKey x = fKey a)) = l.filter (fun x => decide (fKey x = fKey a)) := by
    convert Verif.Cache.sortBy_stable fKey l (fKey a)
  rw [h2] at h1
  have h3 : [a, b].filter (fun x => decide (fKey x = fKey a)) = [a, b] := by
    rw [List.filter_eq_self]
    intro x hx
    rw [List.mem_cons, List.mem_singleton] at hx
    rcases hx with rfl | rfl
    · simp
    · simp [he]
  rw [h3] at h1
  exact List.pairwise_iff_forall_sublist.1 h (h1.trans List.filter_sublist)

theorem payload_order (calls : List History) {k : Nat} {x : Det × (Nat → Nat → Rat)} (hk : calls.flatten[k]? = some x) :
    (payloadOf calls k).Pairwise (fun a b => fKey a = fKey b → PairOrder a b) := by
  have hr := (linv_addAll calls).rows _ List.prefix_rfl
  have : (Loader.init.addAll calls).rows.getD k [] = rowsOf (Loader.init.addAll calls).labels x.1 x.2 k (gtOffset calls.flatten k) (pdOffset calls.flatten k) := by
    rw [List.getD_eq_getElem?_getD, hr, List.getElem?_map, List.getElem?_zipIdx, hk]
    simp
  unfold payloadOf
  rw [this]
  exact sortBy_order (rowsOf_order _ _ _ _ _ _)

/-- The choice of the model is the greedy matching. -/
theorem choice_firstListed {calls : List History} (hH : HistoryOk calls.flatten) (hO : OneLabel calls.flatten) (hS : SizesOk (Loader.init.addAll calls))
    {k : Nat} {x : Det × (Nat → Nat → Rat)} (hk : calls.flatten[k]? = some x) : FirstListed x (choice calls k) := by
  have P := payload_ok hH hO hS hk
  have hgr := chosen_greedy P
  refine ⟨hgr.range, hgr.one, ?_⟩
  intro g p hg hp heps
  have hg := List.getElem?_eq_getElem hg
  have hp := List.getElem?_eq_getElem hp
  obtain ⟨f, hf, hpo, _⟩ := pair_mem P hg hp heps
  obtain ⟨i, hi, he⟩ := List.getElem_of_mem hf
  have hi' : i < ((payloadOf calls k).map FRow.row).length := by rw [List.length_map]; exact hi
  have he' : ((payloadOf calls k).map FRow.row)[i] = f.row := by rw [List.getElem_map, he]
  have hc : 0 ≤ ((payloadOf calls k).map FRow.row)[i].gt ∧ 0 ≤ ((payloadOf calls k).map FRow.row)[i].pd := by
    rw [he', hpo.gt, hpo.pd]
    omega
  by_cases hm : (greedy [] [] ((payloadOf calls k).map FRow.row))[i]? = some true
  · refine ⟨g, p, ?_, Or.inl rfl, Or.inr ⟨rfl, Or.inr ⟨rfl, le_refl _, le_refl _⟩⟩⟩
    unfold choice chosenPairs
    rw [decide_eq_true_eq, mem_keptPairs]
    exact ⟨i, hi', hm, by rw [he', hpo.gt], by rw [he', hpo.pd]⟩
  · obtain ⟨j, hj, hjt, hs⟩ := C30_maximal _ i hi' hc hm
    have hjl : j < ((payloadOf calls k).map FRow.row).length := by omega
    have hjl' : j < (payloadOf calls k).length := by omega
    have hjc := (((C30_greedy ((payloadOf calls k).map FRow.row)).2 j hjl).1 hjt).1
    obtain ⟨g', ga', p', pa', hpo'⟩ := pair_in P (List.getElem_mem hjl) hjc.1 hjc.2
    have e1 := hpo'.gt
    have e2 := hpo'.pd
    have hshare : g' = g ∨ p' = p := by
      rw [he', hpo.gt, hpo.pd] at hs
      rcases hs with hs | hs
      · left; omega
      · right; omega
    refine ⟨g', p', ?_, hshare, ?_⟩
    · unfold choice chosenPairs
      rw [decide_eq_true_eq, mem_keptPairs]
      exact ⟨j, hjl, hjt, hpo'.gt, hpo'.pd⟩
    · have hso := P.sorted
      unfold Verif.Cache.SortedBy at hso
      have h3 := List.pairwise_iff_getElem.1 hso j i hjl' hi hj
      have h4 := List.pairwise_iff_getElem.1 (payload_order calls hk) j i hjl' hi hj
      have hj' : ((payloadOf calls k).map FRow.row)[j] = (payloadOf calls k)[j].row := by rw [List.getElem_map]
      rw [hj'] at hpo' e1 e2
      rw [he] at h3 h4
      have hf1 : fKey f = [-(scoreAt x p), -(x.2 p g)] := by
        unfold fKey rankKey
        rw [hpo.score, hpo.iou, scoreAt_eq hp]
      have hf2 : fKey (payloadOf calls k)[j] = [-(scoreAt x p'), -(x.2 p' g')] := by
        unfold fKey rankKey
        rw [hpo'.score, hpo'.iou, scoreAt_eq hpo'.hp]
      have h5 : rankKey (payloadOf calls k)[j].row ≤ rankKey f.row := h3
      rw [rankKey_le, hpo.score, hpo.iou, hpo'.score, hpo'.iou, ← scoreAt_eq hp, ← scoreAt_eq hpo'.hp] at h5
      rcases h5 with h5 | ⟨h5, h6⟩
      · exact Or.inl h5
      · refine Or.inr ⟨h5, ?_⟩
        rcases lt_or_eq_of_le h6 with h6 | h6
        · exact Or.inl h6
        · refine Or.inr ⟨h6, ?_⟩
          have h7 := h4 (by rw [hf1, hf2, h5, h6]) (by rw [e1]; omega) (by rw [e2]; omega) (by rw [hpo.gt]; omega) (by rw [hpo.pd]; omega)
          rw [e1, e2, hpo.gt, hpo.pd] at h7
          omega

/-! ## Counts of a detection -/

/-- The chosen pairs of a detection that pass the thresholds and have the labels. -/
def cellOf (x : Det × (Nat → Nat → Rat)) (G : Nat → Nat → Bool) (t s : Rat) (gl pl : String) : Nat :=
  (pairsWith x (fun g p => pairPasses x G t s g p && (hasLabel x.1.gts g gl && hasLabel x.1.pds p pl))).length

/-- The ground truths with the label that are in no such pair. -/
def missedOf (x : Det × (Nat → Nat → Rat)) (G : Nat → Nat → Bool) (t s : Rat) (l : String) : Nat :=
  ((List.range x.1.gts.length).filter (fun g => !(List.range x.1.pds.length).any (pairPasses x G t s g) && hasLabel x.1.gts g l)).length

/-- The predictions with the label and a passing score that are in no such pair. -/
def extraOf (x : Det × (Nat → Nat → Rat)) (G : Nat → Nat → Bool) (t s : Rat) (l : String) : Nat :=
  ((List.range x.1.pds.length).filter (fun p => (scorePasses x s p &&
    !(List.range x.1.gts.length).any (fun g => pairPasses x G t s g p)) && hasLabel x.1.pds p l)).length

theorem matchedIn_length (x : Det × (Nat → Nat → Rat)) (G : Nat → Nat → Bool) (t s : Rat) (gl pl : String) :
    (matchedIn x G t s gl pl).length = cellOf x G t s gl pl := by
  unfold matchedIn cellOf pairsWith
  simp only [List.length_flatMap, List.length_map]

theorem sum_kept (H : History) (f : Nat → Det × (Nat → Nat → Rat) → Nat)
    (hf : ∀ k x, x.1.gts = [] → x.1.pds = [] → f k x = 0) :
    ((keptDatums H (fun _ => true)).map (fun k => (H[k]?).elim 0 (f k))).sum
      = ((List.range H.length).map (fun k => (H[k]?).elim 0 (f k))).sum := by
  unfold keptDatums
  generalize List.range H.length = l
  induction l with
  | nil => rfl
  | cons k l ih =>
    rw [List.filter_cons, List.map_cons, List.sum_cons, ← ih]
    split
    · rw [List.map_cons, List.sum_cons]
    · rename_i h
      have : (H[k]?).elim 0 (f k) = 0 := by
        cases hk : H[k]? with
        | none => rfl
        | some x =>
          unfold annotatedKeys at h
          rw [hk] at h
          simp only [Bool.true_and, Bool.or_eq_true, Bool.not_eq_true', List.isEmpty_eq_false_iff, not_or, not_not] at h
          exact hf k x h.1 h.2
      omega

theorem length_elim {α : Type} (ks : List Nat) (H : History) (f : Nat → Det × (Nat → Nat → Rat) → List α) :
    (ks.flatMap (fun k => (H[k]?).elim [] (f k))).length = (ks.map (fun k => (H[k]?).elim 0 (fun x => (f k x).length))).sum := by
  rw [List.length_flatMap]
  congr 1
  apply List.map_congr_left
  intro k _
  cases H[k]? <;> rfl

theorem unknown_cell {L : List String} {tables : List (List FRow)} (h : ∀ T ∈ tables, TableOk L T) (t s : Rat) {g p : String} (hg : g ∉ L ∨ p ∉ L) :
    cmTotal (rowsIn tables) t s (L.idxOf g : Nat) (L.idxOf p : Nat) = 0 := by
  unfold cmTotal rowsIn
  rw [List.map_map, List.sum_eq_zero_iff]
  intro n hn
  obtain ⟨T, hT, rfl⟩ := List.mem_map.1 hn
  simp only [Function.comp_apply]
  unfold cmCell
  rw [List.length_eq_zero_iff, List.filter_eq_nil_iff]
  intro key hkey
  unfold Verif.Classification.unique at hkey
  rw [List.mem_dedup, List.mem_map] at hkey
  obtain ⟨r, hr, rfl⟩ := hkey
  rw [List.mem_filter] at hr
  obtain ⟨_, h0, h0'⟩ := matched_pos (h T hT) hr.1 hr.2
  obtain ⟨f, hf, rfl⟩ := List.mem_map.1 hr.1
  simp only [List.getElem?_cons_succ, List.getElem?_cons_zero, Option.some.injEq, Bool.and_eq_true, decide_eq_true_eq, not_and]
  intro e1 e2
  rcases hg with hg | hg
  · rcases (h T hT).gl f hf with ⟨_, i, hi, hlt⟩ | ⟨hn, _⟩
    · rw [List.idxOf_eq_length hg] at e1
      omega
    · omega
  · rcases (h T hT).pl f hf with ⟨_, i, hi, hlt⟩ | ⟨hn, _⟩
    · rw [List.idxOf_eq_length hg] at e2
      omega
    · omega

theorem unknown_missed {L : List String} {tables : List (List FRow)} (h : ∀ T ∈ tables, TableOk L T) (t s : Rat) {l : String} (hl : l ∉ L) :
    unmatchedGtTotal (rowsIn tables) t s (L.idxOf l : Nat) = 0 ∧ unmatchedPdTotal (rowsIn tables) t s (L.idxOf l : Nat) = 0 := by
  unfold unmatchedGtTotal unmatchedPdTotal rowsIn
  rw [List.map_map, List.map_map, List.sum_eq_zero_iff, List.sum_eq_zero_iff]
  constructor
  · intro n hn
    obtain ⟨T, hT, rfl⟩ := List.mem_map.1 hn
    simp only [Function.comp_apply]
    unfold unmatchedGt
    rw [List.length_eq_zero_iff, List.filter_eq_nil_iff]
    intro key hkey
    unfold Verif.Classification.unique at hkey
    rw [List.mem_dedup, List.mem_map] at hkey
    obtain ⟨r, hr, rfl⟩ := hkey
    rw [List.mem_filter] at hr
    have h0 := ((pairFn_spec (h T hT).owned t s hr.1).1 hr.2).2
    obtain ⟨f, hf, rfl⟩ := List.mem_map.1 hr.1
    simp only [List.getElem?_cons_succ, List.getElem?_cons_zero, Option.some.injEq, decide_eq_true_eq]
    intro e1
    rcases (h T hT).gl f hf with ⟨_, i, hi, hlt⟩ | ⟨hn, _⟩
    · rw [List.idxOf_eq_length hl] at e1
      omega
    · omega
  · intro n hn
    obtain ⟨T, hT, rfl⟩ := List.mem_map.1 hn
    simp only [Function.comp_apply]
    unfold unmatchedPd
    rw [List.length_eq_zero_iff, List.filter_eq_nil_iff]
    intro key hkey
    unfold Verif.Classification.unique at hkey
    rw [List.mem_dedup, List.mem_map] at hkey
    obtain ⟨r, hr, rfl⟩ := hkey
    rw [List.mem_filter] at hr
    have h0 := ((pairFp_spec (h T hT).owned t s hr.1).1 hr.2).1.2
    obtain ⟨f, hf, rfl⟩ := List.mem_map.1 hr.1
    simp only [List.getElem?_cons_succ, List.getElem?_cons_zero, Option.some.injEq, decide_eq_true_eq]
    intro e1
    rcases (h T hT).pl f hf with ⟨_, i, hi, hlt⟩ | ⟨hn, _⟩
    · rw [List.idxOf_eq_length hl] at e1
      omega
    · omega

theorem hasLabel_mem {calls : List History} (hH : HistoryOk calls.flatten) (hO : OneLabel calls.flatten)
    (hS : SizesOk (Loader.init.addAll calls)) {k : Nat} {x : Det × (Nat → Nat → Rat)} (hk : calls.flatten[k]? = some x) {i : Nat} {v : String} :
    (hasLabel x.1.gts i v = true → v ∈ (Loader.init.addAll calls).labels) ∧ (hasLabel x.1.pds i v = true → v ∈ (Loader.init.addAll calls).labels) := by
  have P := payload_ok hH hO hS hk
  constructor
  · intro h
    unfold hasLabel at h
    rw [decide_eq_true_eq, Option.map_eq_some_iff] at h
    obtain ⟨b, hb, rfl⟩ := h
    obtain ⟨f, hf, he⟩ := gt_row P hb
    obtain ⟨g', ga, hg', e', _, _, hm⟩ := gt_in P hf (by omega)
    have : g' = i := by omega
    subst this
    rw [hb] at hg'
    cases hg'
    exact hm
  · intro h
    unfold hasLabel at h
    rw [decide_eq_true_eq, Option.map_eq_some_iff] at h
    obtain ⟨b, hb, rfl⟩ := h
    obtain ⟨f, hf, he⟩ := pd_row P hb
    obtain ⟨p', pa, hp', e', _, _, _, hm⟩ := pd_in P hf (by omega)
    have : p' = i := by omega
    subst this
    rw [hb] at hp'
    cases hp'
    exact hm

theorem sum_range_get (H : History) (f : Nat → Det × (Nat → Nat → Rat) → Nat) (g : Det × (Nat → Nat → Rat) → Nat)
    (h : ∀ k x, H[k]? = some x → f k x = g x) : ((List.range H.length).map (fun k => (H[k]?).elim 0 (f k))).sum = (H.map g).sum := by
  have : (List.range H.length).map (fun k => (H[k]?).elim 0 (f k)) = H.map g := by
    apply List.ext_getElem
    · simp
    · intro i h1 h2
      rw [List.length_map] at h2
      simp only [List.getElem_map, List.getElem_range]
      rw [List.getElem?_eq_getElem h2]
      exact h i _ (List.getElem?_eq_getElem h2)
  rw [this]

/-- The confusion matrix from the choices of the model. -/
theorem cm_choice (e : Built) (hH : HistoryOk e.calls.flatten) (hO : OneLabel e.calls.flatten) (hS : SizesOk (Loader.init.addAll e.calls)) (t s : Rat) :
    (∀ gl pl, e.cell t s gl pl = ((List.range e.calls.flatten.length).map (fun k => (e.calls.flatten[k]?).elim 0
      (fun x => cellOf x (choice e.calls k) t s gl pl))).sum) ∧
    (∀ l, e.missed t s l = ((List.range e.calls.flatten.length).map (fun k => (e.calls.flatten[k]?).elim 0
      (fun x => missedOf x (choice e.calls k) t s l))).sum) ∧
    (∀ l, e.spurious t s l = ((List.range e.calls.flatten.length).map (fun k => (e.calls.flatten[k]?).elim 0
      (fun x => extraOf x (choice e.calls k) t s l))).sum) := by
  obtain ⟨ms, h1, h2, h3⟩ := C59_matrix_counts hH hS e.stored none [t] [s] (by simp) (by simp)
  obtain ⟨ms', h1', _, h3'⟩ := cm_entry hH hO hS e.stored none (fun _ => true) (fun _ _ => rfl) [t] [s] (by simp) (by simp)
  rw [h1] at h1'
  cases h1'
  simp only [List.flatMap_cons, List.map_cons, List.map_nil, List.flatMap_nil, List.append_nil] at h2
  have hy : ∃ y ∈ ms, y.1 = (t, s) := by
    cases ms with
    | nil => simp at h2
    | cons y l => exact ⟨y, List.mem_cons_self, by simp only [List.map_cons, List.cons.injEq] at h2; exact h2.1⟩
  obtain ⟨y, hy, hts⟩ := hy
  have h3 := h3 y hy
  have h3' := h3' y hy
  rw [hts] at h3 h3'
  have hread : e.tables.map (readTable none) = e.tables := by
    rw [show (readTable none) = (id : List FRow → List FRow) from rfl, List.map_id]
  simp only [hread] at h3
  have hT : ∀ T ∈ e.tables, TableOk (Loader.init.addAll e.calls).labels T :=
    fun T hT => table_ok hH hS (read_mem e.stored none hT)
  have hmem := fun {k x} (hk : e.calls.flatten[k]? = some x) {i v} => hasLabel_mem hH hO hS hk (i := i) (v := v)
  refine ⟨?_, ?_, ?_⟩
  · intro gl pl
    by_cases hg : gl ∈ (Loader.init.addAll e.calls).labels ∧ pl ∈ (Loader.init.addAll e.calls).labels
    · obtain ⟨⟨a1, a2⟩, _⟩ := h3 gl hg.1 pl hg.2
      unfold Built.cell labelId
      rw [← a2, a1, h3'.cm, length_elim]
      simp only [matchedIn_length]
      apply sum_kept
      intro k x hx _
      unfold cellOf pairsWith
      rw [hx]
      rfl
    · have hg' : gl ∉ (Loader.init.addAll e.calls).labels ∨ pl ∉ (Loader.init.addAll e.calls).labels := by tauto
      unfold Built.cell labelId
      rw [unknown_cell hT t s hg']
      symm
      rw [List.sum_eq_zero_iff]
      intro n hn
      obtain ⟨k, hk, rfl⟩ := List.mem_map.1 hn
      cases hx : e.calls.flatten[k]? with
      | none => rfl
      | some x =>
        show cellOf _ _ _ _ _ _ = 0
        unfold cellOf
        rw [List.length_eq_zero_iff, List.eq_nil_iff_forall_not_mem]
        rintro ⟨g, p⟩ hgp
        rw [mem_pairsWith] at hgp
        simp only [Bool.and_eq_true] at hgp
        exact hg ⟨(hmem hx).1 hgp.2.2.1, (hmem hx).2 hgp.2.2.2⟩
  · intro l
    by_cases hl : l ∈ (Loader.init.addAll e.calls).labels
    · obtain ⟨_, ⟨a1, a2⟩, _⟩ := h3 l hl l hl
      unfold Built.missed labelId
      rw [← a2, a1, h3'.ugt, length_elim]
      have hlen : ∀ k x, (missedIn x (choice e.calls k) t s l).length = missedOf x (choice e.calls k) t s l := by
        intro k x
        unfold missedIn missedOf
        rw [List.length_map]
      simp only [hlen]
      apply sum_kept
      intro k x hx _
      unfold missedOf
      rw [hx]
      rfl
    · unfold Built.missed labelId
      rw [(unknown_missed hT t s hl).1]
      symm
      rw [List.sum_eq_zero_iff]
      intro n hn
      obtain ⟨k, hk, rfl⟩ := List.mem_map.1 hn
      cases hx : e.calls.flatten[k]? with
      | none => rfl
      | some x =>
        show missedOf _ _ _ _ _ = 0
        unfold missedOf
        rw [List.length_eq_zero_iff, List.filter_eq_nil_iff]
        intro g _ h
        rw [Bool.and_eq_true] at h
        exact hl ((hmem hx).1 h.2)
  · intro l
    by_cases hl : l ∈ (Loader.init.addAll e.calls).labels
    · obtain ⟨_, _, ⟨a1, a2⟩⟩ := h3 l hl l hl
      unfold Built.spurious labelId
      rw [← a2, a1, h3'.upd, length_elim]
      have hlen : ∀ k x, (extraIn x (choice e.calls k) t s l).length = extraOf x (choice e.calls k) t s l := by
        intro k x
        unfold extraIn extraOf
        rw [List.length_map]
      simp only [hlen]
      apply sum_kept
      intro k x _ hx
      unfold extraOf
      rw [hx]
      rfl
    · unfold Built.spurious labelId
      rw [(unknown_missed hT t s hl).2]
      symm
      rw [List.sum_eq_zero_iff]
      intro n hn
      obtain ⟨k, hk, rfl⟩ := List.mem_map.1 hn
      cases hx : e.calls.flatten[k]? with
      | none => rfl
      | some x =>
        show extraOf _ _ _ _ _ = 0
        unfold extraOf
        rw [List.length_eq_zero_iff, List.filter_eq_nil_iff]
        intro g _ h
        rw [Bool.and_eq_true] at h
        exact hl ((hmem hx).2 h.2)

/-- **C115 (exact).** Predictions have one label. For every greedy matching of the annotations (one to one among the pairs that overlap; a pair that is
left out shares an annotation with a chosen pair of higher score, or of the same score and larger overlap, or of the same score and overlap that comes first
in the listing), whatever the calls, the storage of the cache and the order of adding: the cells of the confusion matrix count the pairs of the matching
that pass both thresholds, and the unmatched counts the annotations that are in no such pair. -/
theorem C115_exact (e : Built) (hH : HistoryOk e.calls.flatten) (hO : OneLabel e.calls.flatten) (hS : SizesOk (Loader.init.addAll e.calls))
    (M : Det × (Nat → Nat → Rat) → Nat → Nat → Bool) (hM : ∀ x ∈ e.calls.flatten, FirstListed x (M x)) (t s : Rat) :
    (∀ gl pl, e.cell t s gl pl = (e.calls.flatten.map (fun x => cellOf x (M x) t s gl pl)).sum) ∧
    (∀ l, e.missed t s l = (e.calls.flatten.map (fun x => missedOf x (M x) t s l)).sum) ∧
    (∀ l, e.spurious t s l = (e.calls.flatten.map (fun x => extraOf x (M x) t s l)).sum) := by
  obtain ⟨h1, h2, h3⟩ := cm_choice e hH hO hS t s
  have hu : ∀ k x, e.calls.flatten[k]? = some x → choice e.calls k = M x := fun k x hk =>
    firstListed_unique (choice_firstListed hH hO hS hk) (hM x (List.mem_of_getElem? hk))
  refine ⟨fun gl pl => (h1 gl pl).trans (sum_range_get _ _ _ ?_), fun l => (h2 l).trans (sum_range_get _ _ _ ?_), fun l => (h3 l).trans (sum_range_get _ _ _ ?_)⟩
  · intro k x hk; rw [hu k x hk]
  · intro k x hk; rw [hu k x hk]
  · intro k x hk; rw [hu k x hk]

/-- **C115 (existence).** Every detection has a greedy matching, and only one. -/
theorem C115_matching (e : Built) (hH : HistoryOk e.calls.flatten) (hO : OneLabel e.calls.flatten) (hS : SizesOk (Loader.init.addAll e.calls))
    {x : Det × (Nat → Nat → Rat)} (hx : x ∈ e.calls.flatten) : ∃! G : Nat → Nat → Bool, FirstListed x G := by
  obtain ⟨k, hk, rfl⟩ := List.getElem_of_mem hx
  exact ⟨choice e.calls k, choice_firstListed hH hO hS (List.getElem?_eq_getElem hk), fun G hG => firstListed_unique hG
    (choice_firstListed hH hO hS (List.getElem?_eq_getElem hk))⟩

theorem matching_exists (e : Built) (hH : HistoryOk e.calls.flatten) (hO : OneLabel e.calls.flatten) (hS : SizesOk (Loader.init.addAll e.calls)) :
    ∃ M : Det × (Nat → Nat → Rat) → Nat → Nat → Bool, ∀ x ∈ e.calls.flatten, FirstListed x (M x) := by
  have : ∀ x : Det × (Nat → Nat → Rat), ∃ G : Nat → Nat → Bool, x ∈ e.calls.flatten → FirstListed x G := by
    intro x
    by_cases hx : x ∈ e.calls.flatten
    · obtain ⟨G, hG, _⟩ := C115_matching e hH hO hS hx
      exact ⟨G, fun _ => hG⟩
    · exact ⟨fun _ _ => false, fun h => absurd h hx⟩
  choose M hM using this
  exact ⟨M, hM⟩

/-! ## Annotations in another order -/

theorem length_le_of_inj {α β : Type} {l : List α} {m : List β} (hl : l.Nodup) (f : α → β) (h : ∀ a ∈ l, f a ∈ m)
    (hi : ∀ a ∈ l, ∀ b ∈ l, f a = f b → a = b) : l.length ≤ m.length := by
  have := (List.subperm_of_subset ((List.nodup_map_iff_inj_on hl).2 hi) (l₂ := m) (by
    intro y hy
    obtain ⟨a, ha, rfl⟩ := List.mem_map.1 hy
    exact h a ha)).length_le
  rwa [List.length_map] at this

theorem pairsWith_nodup {x : Det × (Nat → Nat → Rat)} (Q : Nat → Nat → Bool) : (pairsWith x Q).Nodup := by
  refine (pairsWith_sorted Q).imp ?_
  rintro ⟨a, b⟩ ⟨c, d⟩ h he
  rw [Prod.mk.injEq] at he
  omega

section Shuffle

variable {x x' : Det × (Nat → Nat → Rat)} {σ σ' τ τ' : Nat → Nat}

theorem Shuffled.lt_gts (h : Shuffled x x' σ σ' τ τ') {g : Nat} (hg : g < x.1.gts.length) : σ g < x'.1.gts.length ∧ σ' (σ g) = g := by
  obtain ⟨h1, h2⟩ := h.gts g _ (List.getElem?_eq_getElem hg)
  exact ⟨(List.getElem?_eq_some_iff.1 h1).1, h2⟩

theorem Shuffled.lt_pds (h : Shuffled x x' σ σ' τ τ') {p : Nat} (hp : p < x.1.pds.length) : τ p < x'.1.pds.length ∧ τ' (τ p) = p := by
  obtain ⟨h1, h2⟩ := h.pds p _ (List.getElem?_eq_getElem hp)
  exact ⟨(List.getElem?_eq_some_iff.1 h1).1, h2⟩

theorem Shuffled.overlap (h : Shuffled x x' σ σ' τ τ') {g p : Nat} (hg : g < x.1.gts.length) (hp : p < x.1.pds.length) :
    x'.2 (τ p) (σ g) = x.2 p g := h.iou p _ g _ (List.getElem?_eq_getElem hp) (List.getElem?_eq_getElem hg)

theorem Shuffled.score (h : Shuffled x x' σ σ' τ τ') {p : Nat} (hp : p < x.1.pds.length) : scoreAt x' (τ p) = scoreAt x p := by
  have h1 := (h.pds p _ (List.getElem?_eq_getElem hp)).1
  rw [scoreAt_eq h1, scoreAt_eq (List.getElem?_eq_getElem hp)]

theorem Shuffled.hasLabel (h : Shuffled x x' σ σ' τ τ') (v : String) : (∀ {g : Nat}, g < x.1.gts.length → hasLabel x'.1.gts (σ g) v = hasLabel x.1.gts g v) ∧
    ∀ {p : Nat}, p < x.1.pds.length → Detection.hasLabel x'.1.pds (τ p) v = Detection.hasLabel x.1.pds p v := by
  constructor
  · intro g hg
    unfold Detection.hasLabel
    rw [(h.gts g _ (List.getElem?_eq_getElem hg)).1, List.getElem?_eq_getElem hg]
  · intro p hp
    unfold Detection.hasLabel
    rw [(h.pds p _ (List.getElem?_eq_getElem hp)).1, List.getElem?_eq_getElem hp]

/-- The matching of the rearranged detection, read in the old order. -/
theorem Shuffled.greedy (h : Shuffled x x' σ σ' τ τ') {G' : Nat → Nat → Bool} (hG : Greedy x' G') :
    Greedy x (fun g p => decide (g < x.1.gts.length) && (decide (p < x.1.pds.length) && G' (σ g) (τ p))) := by
  have hb : ∀ {g p}, (decide (g < x.1.gts.length) && (decide (p < x.1.pds.length) && G' (σ g) (τ p))) = true ↔
      g < x.1.gts.length ∧ p < x.1.pds.length ∧ G' (σ g) (τ p) = true := by
    intro g p
    rw [Bool.and_eq_true, Bool.and_eq_true, decide_eq_true_eq, decide_eq_true_eq]
  refine ⟨?_, ?_, ?_⟩
  · intro g p hgp
    obtain ⟨h1, h2, h3⟩ := hb.1 hgp
    refine ⟨h1, h2, ?_⟩
    rw [← h.overlap h1 h2]
    exact (hG.range _ _ h3).2.2
  · intro g p g' p' hgp hgp' hc
    obtain ⟨h1, h2, h3⟩ := hb.1 hgp
    obtain ⟨h1', h2', h3'⟩ := hb.1 hgp'
    obtain ⟨e1, e2⟩ := hG.one _ _ _ _ h3 h3' (hc.imp (congrArg σ) (congrArg τ))
    constructor
    · rw [← (h.lt_gts h1).2, e1, (h.lt_gts h1').2]
    · rw [← (h.lt_pds h2).2, e2, (h.lt_pds h2').2]
  · intro g ga p pa hga hpa hi
    have hg := (List.getElem?_eq_some_iff.1 hga).1
    have hp := (List.getElem?_eq_some_iff.1 hpa).1
    obtain ⟨g', p', pa', b1, b2, b3, b4⟩ := hG.best (σ g) ga (τ p) pa (h.gts g ga hga).1 (h.pds p pa hpa).1 (by rw [h.overlap hg hp]; exact hi)
    obtain ⟨r1, r2, _⟩ := hG.range _ _ b1
    obtain ⟨s1, s2⟩ := h.symm.lt_gts r1
    obtain ⟨q1, q2⟩ := h.symm.lt_pds r2
    refine ⟨σ' g', τ' p', pa', hb.2 ⟨s1, q1, by rw [s2, q2]; exact b1⟩, (h.pds' p' pa' b2).1, ?_, ?_⟩
    · rcases b3 with rfl | rfl
      · exact Or.inl (h.lt_gts hg).2
      · exact Or.inr (h.lt_pds hp).2
    · rw [← h.overlap hg hp, ← h.overlap s1 q1, s2, q2]
      exact b4

theorem Shuffled.scorePasses (h : Shuffled x x' σ σ' τ τ') (s : Rat) {p : Nat} (hp : p < x.1.pds.length) :
    Detection.scorePasses x' s (τ p) = Detection.scorePasses x s p := by
  unfold Detection.scorePasses
  rw [(h.pds p _ (List.getElem?_eq_getElem hp)).1, List.getElem?_eq_getElem hp]

/-- The pairs of the two matchings correspond. -/
def Corresponds (x : Det × (Nat → Nat → Rat)) (σ τ : Nat → Nat) (G G' : Nat → Nat → Bool) : Prop :=
  ∀ g p, g < x.1.gts.length → p < x.1.pds.length → G' (σ g) (τ p) = G g p

theorem Corresponds.symm (h : Shuffled x x' σ σ' τ τ') {G G' : Nat → Nat → Bool} (hc : Corresponds x σ τ G G') : Corresponds x' σ' τ' G' G := by
  intro g p hg hp
  obtain ⟨s1, s2⟩ := h.symm.lt_gts hg
  obtain ⟨q1, q2⟩ := h.symm.lt_pds hp
  rw [← hc _ _ s1 q1, s2, q2]

theorem Shuffled.corresponds (h : Shuffled x x' σ σ' τ τ') (hx : ClearOrder x) {G G' : Nat → Nat → Bool} (hG : Greedy x G) (hG' : Greedy x' G') :
    Corresponds x σ τ G G' := by
  intro g p hg hp
  rw [greedy_unique hx hG (h.greedy hG')]
  simp [hg, hp]

theorem Corresponds.passes (h : Shuffled x x' σ σ' τ τ') {G G' : Nat → Nat → Bool} (hc : Corresponds x σ τ G G') (t s : Rat) {g p : Nat}
    (hg : g < x.1.gts.length) (hp : p < x.1.pds.length) : pairPasses x' G' t s (σ g) (τ p) = pairPasses x G t s g p := by
  unfold pairPasses
  rw [hc g p hg hp, h.overlap hg hp, h.scorePasses s hp]

theorem Corresponds.cell_le (h : Shuffled x x' σ σ' τ τ') {G G' : Nat → Nat → Bool} (hc : Corresponds x σ τ G G') (t s : Rat) (gl pl : String) :
    cellOf x G t s gl pl ≤ cellOf x' G' t s gl pl := by
  unfold cellOf
  refine length_le_of_inj (pairsWith_nodup _) (fun y => (σ y.1, τ y.2)) ?_ ?_
  · rintro ⟨g, p⟩ hy
    rw [mem_pairsWith] at hy ⊢
    obtain ⟨⟨hg, hp⟩, hq⟩ := hy
    refine ⟨⟨(h.lt_gts hg).1, (h.lt_pds hp).1⟩, ?_⟩
    rw [hc.passes h t s hg hp, (h.hasLabel gl).1 hg, (h.hasLabel pl).2 hp]
    exact hq
  · rintro ⟨g, p⟩ hy ⟨g', p'⟩ hy' he
    rw [mem_pairsWith] at hy hy'
    rw [Prod.mk.injEq] at he
    rw [Prod.mk.injEq]
    constructor
    · rw [← (h.lt_gts hy.1.1).2, he.1, (h.lt_gts hy'.1.1).2]
    · rw [← (h.lt_pds hy.1.2).2, he.2, (h.lt_pds hy'.1.2).2]

theorem Corresponds.missed_le (h : Shuffled x x' σ σ' τ τ') {G G' : Nat → Nat → Bool} (hc : Corresponds x σ τ G G') (t s : Rat) (l : String) :
    missedOf x G t s l ≤ missedOf x' G' t s l := by
  unfold missedOf
  refine length_le_of_inj (List.nodup_range.filter _) σ ?_ ?_
  · intro g hg
    rw [List.mem_filter, List.mem_range, Bool.and_eq_true, Bool.not_eq_true', ← Bool.not_eq_true, List.any_eq_true] at hg ⊢
    obtain ⟨h1, h2, h3⟩ := hg
    refine ⟨(h.lt_gts h1).1, ?_, by rw [(h.hasLabel l).1 h1]; exact h3⟩
    rintro ⟨p', hp', hq⟩
    rw [List.mem_range] at hp'
    obtain ⟨q1, q2⟩ := h.symm.lt_pds hp'
    refine h2 ⟨τ' p', List.mem_range.2 q1, ?_⟩
    rw [← hc.passes h t s h1 q1, q2]
    exact hq
  · intro a ha b hb he
    rw [List.mem_filter, List.mem_range] at ha hb
    rw [← (h.lt_gts ha.1).2, he, (h.lt_gts hb.1).2]

theorem Corresponds.extra_le (h : Shuffled x x' σ σ' τ τ') {G G' : Nat → Nat → Bool} (hc : Corresponds x σ τ G G') (t s : Rat) (l : String) :
    extraOf x G t s l ≤ extraOf x' G' t s l := by
  unfold extraOf
  refine length_le_of_inj (List.nodup_range.filter _) τ ?_ ?_
  · intro p hp
    rw [List.mem_filter, List.mem_range, Bool.and_eq_true, Bool.and_eq_true, Bool.not_eq_true', ← Bool.not_eq_true, List.any_eq_true] at hp ⊢
    obtain ⟨h1, ⟨h4, h2⟩, h3⟩ := hp
    refine ⟨(h.lt_pds h1).1, ⟨by rw [h.scorePasses s h1]; exact h4, ?_⟩, by rw [(h.hasLabel l).2 h1]; exact h3⟩
    rintro ⟨g', hg', hq⟩
    rw [List.mem_range] at hg'
    obtain ⟨q1, q2⟩ := h.symm.lt_gts hg'
    refine h2 ⟨σ' g', List.mem_range.2 q1, ?_⟩
    rw [← hc.passes h t s q1 h1, q2]
    exact hq
  · intro a ha b hb he
    rw [List.mem_filter, List.mem_range] at ha hb
    rw [← (h.lt_pds ha.1).2, he, (h.lt_pds hb.1).2]

end Shuffle

/-- The full statement: the order in which the annotations of a detection are listed does not matter for the confusion matrix. -/
def MatrixOrderFree : Prop :=
  ∀ e e' : Built, HistoryOk e.calls.flatten → HistoryOk e'.calls.flatten → OneLabel e.calls.flatten → OneLabel e'.calls.flatten →
    SizesOk (Loader.init.addAll e.calls) → SizesOk (Loader.init.addAll e'.calls) → List.Forall₂ Rearranged e.calls.flatten e'.calls.flatten →
    ∀ t s, (∀ gl pl, e.cell t s gl pl = e'.cell t s gl pl) ∧ (∀ l, e.missed t s l = e'.missed t s l) ∧ (∀ l, e.spurious t s l = e'.spurious t s l)

/-- **C115 (order of the annotations, partial).** The annotations of the detections are listed in another order, predictions have one label, and no
two overlapping pairs with a common annotation have equal score and equal overlap: the confusion matrix stays, at all thresholds. Missing: such ties, for
which it is false (`C115_violation`). -/
theorem C115_order_partial (e e' : Built) (hH : HistoryOk e.calls.flatten) (hH' : HistoryOk e'.calls.flatten) (hO : OneLabel e.calls.flatten)
    (hO' : OneLabel e'.calls.flatten) (hS : SizesOk (Loader.init.addAll e.calls)) (hS' : SizesOk (Loader.init.addAll e'.calls))
    (h : List.Forall₂ (fun x x' => Rearranged x x' ∧ ClearOrder x) e.calls.flatten e'.calls.flatten) (t s : Rat) :
    (∀ gl pl, e.cell t s gl pl = e'.cell t s gl pl) ∧ (∀ l, e.missed t s l = e'.missed t s l) ∧ (∀ l, e.spurious t s l = e'.spurious t s l) := by
  obtain ⟨M, hM⟩ := matching_exists e hH hO hS
  obtain ⟨M', hM'⟩ := matching_exists e' hH' hO' hS'
  obtain ⟨a1, a2, a3⟩ := C115_exact e hH hO hS M hM t s
  obtain ⟨b1, b2, b3⟩ := C115_exact e' hH' hO' hS' M' hM' t s
  refine ⟨fun gl pl => ?_, fun l => ?_, fun l => ?_⟩
  · rw [a1, b1]
    refine sum_forall₂ h (fun x hx y hy hxy => ?_)
    obtain ⟨⟨σ, σ', τ, τ', hs⟩, hc⟩ := hxy
    have hcor := hs.corresponds hc (hM x hx).greedy (hM' y hy).greedy
    exact Nat.le_antisymm (hcor.cell_le hs t s gl pl) ((hcor.symm hs).cell_le hs.symm t s gl pl)
  · rw [a2, b2]
    refine sum_forall₂ h (fun x hx y hy hxy => ?_)
    obtain ⟨⟨σ, σ', τ, τ', hs⟩, hc⟩ := hxy
    have hcor := hs.corresponds hc (hM x hx).greedy (hM' y hy).greedy
    exact Nat.le_antisymm (hcor.missed_le hs t s l) ((hcor.symm hs).missed_le hs.symm t s l)
  · rw [a3, b3]
    refine sum_forall₂ h (fun x hx y hy hxy => ?_)
    obtain ⟨⟨σ, σ', τ, τ', hs⟩, hc⟩ := hxy
    have hcor := hs.corresponds hc (hM x hx).greedy (hM' y hy).greedy
    exact Nat.le_antisymm (hcor.extra_le hs t s l) ((hcor.symm hs).extra_le hs.symm t s l)

/-! ## Exchanged roles -/

/-- Ground truths and predictions of a detection are exchanged. -/
structure Exchanged (x x' : Det × (Nat → Nat → Rat)) : Prop where
  gts : x'.1.gts.map (fun a => a.labels.headD "") = x.1.pds.map (fun a => a.labels.headD "")
  pds : x'.1.pds.map (fun a => a.labels.headD "") = x.1.gts.map (fun a => a.labels.headD "")
  iou : ∀ p g, p < x.1.pds.length → g < x.1.gts.length → x'.2 g p = x.2 p g

/-- All predictions of a detection have one score, which passes. -/
def SameScore (x : Det × (Nat → Nat → Rat)) (s : Rat) : Prop := ∃ c : Rat, EPSILON < c ∧ s ≤ c ∧ ∀ a ∈ x.1.pds, a.scores.headD 0 = c

section Exchange

variable {x x' : Det × (Nat → Nat → Rat)}

theorem Exchanged.lengths (h : Exchanged x x') : x'.1.gts.length = x.1.pds.length ∧ x'.1.pds.length = x.1.gts.length := by
  have h1 := congrArg List.length h.gts
  have h2 := congrArg List.length h.pds
  rw [List.length_map, List.length_map] at h1 h2
  exact ⟨h1, h2⟩

theorem Exchanged.symm (h : Exchanged x x') : Exchanged x' x := by
  obtain ⟨h1, h2⟩ := h.lengths
  refine ⟨h.pds.symm, h.gts.symm, ?_⟩
  intro p g hp hg
  exact (h.iou g p (h1 ▸ hg) (h2 ▸ hp)).symm

theorem Exchanged.hasLabel (h : Exchanged x x') (i : Nat) (v : String) :
    hasLabel x'.1.gts i v = hasLabel x.1.pds i v ∧ Detection.hasLabel x'.1.pds i v = Detection.hasLabel x.1.gts i v := by
  unfold Detection.hasLabel
  have h1 := congrArg (fun l => l[i]?) h.gts
  have h2 := congrArg (fun l => l[i]?) h.pds
  simp only [List.getElem?_map] at h1 h2
  exact ⟨by rw [h1], by rw [h2]⟩

theorem SameScore.score {s : Rat} (h : SameScore x s) {p q : Nat} {a b : Ann} (ha : x.1.pds[p]? = some a) (hb : x.1.pds[q]? = some b) :
    a.scores.headD 0 = b.scores.headD 0 := by
  obtain ⟨c, _, _, hc⟩ := h
  rw [hc a (List.mem_of_getElem? ha), hc b (List.mem_of_getElem? hb)]

theorem SameScore.passes {s : Rat} (h : SameScore x s) {p : Nat} (hp : p < x.1.pds.length) : scorePasses x s p = true := by
  obtain ⟨c, h1, h2, hc⟩ := h
  unfold scorePasses
  rw [List.getElem?_eq_getElem hp]
  simp only
  rw [hc _ (List.getElem_mem hp)]
  simp [h1, h2]

theorem SameScore.at {s : Rat} (h : SameScore x s) {p q : Nat} (hp : p < x.1.pds.length) (hq : q < x.1.pds.length) : scoreAt x p = scoreAt x q := by
  rw [scoreAt_eq (List.getElem?_eq_getElem hp), scoreAt_eq (List.getElem?_eq_getElem hq)]
  exact h.score (List.getElem?_eq_getElem hp) (List.getElem?_eq_getElem hq)

theorem Exchanged.matching (h : Exchanged x x') {s s' : Rat} (hu : SameScore x s) (hu' : SameScore x' s') {G' : Nat → Nat → Bool} (hG : FirstListed x' G') :
    FirstListed x (fun g p => G' p g) := by
  obtain ⟨l1, l2⟩ := h.lengths
  refine ⟨?_, ?_, ?_⟩
  · intro g p hgp
    obtain ⟨r1, r2, r3⟩ := hG.range p g hgp
    rw [l1] at r1
    rw [l2] at r2
    exact ⟨r2, r1, by rw [← h.iou p g r1 r2]; exact r3⟩
  · intro g p g' p' h1 h2 hc
    exact (hG.one p g p' g' h1 h2 hc.symm).symm
  · intro g p hg hp hi
    have hg' : g < x'.1.pds.length := by rw [l2]; exact hg
    have hp' : p < x'.1.gts.length := by rw [l1]; exact hp
    obtain ⟨p1, g1, b1, b2, b3⟩ := hG.best p g hp' hg' (by rw [h.iou p g hp hg]; exact hi)
    obtain ⟨r1, r2, _⟩ := hG.range _ _ b1
    have r1' := r1
    have r2' := r2
    rw [l1] at r1'
    rw [l2] at r2'
    refine ⟨g1, p1, b1, b2.symm, Or.inr ⟨hu.at hp r1', ?_⟩⟩
    rw [← h.iou p g hp hg, ← h.iou p1 g1 r1' r2']
    rcases b3 with b3 | ⟨_, b3⟩
    · exact absurd (hu'.at hg' r2) b3.ne
    · exact b3.imp id (fun b => ⟨b.1, b.2.2, b.2.1⟩)

theorem Exchanged.passes (h : Exchanged x x') {s : Rat} (hu : SameScore x s) (hu' : SameScore x' s) {G G' : Nat → Nat → Bool}
    (hG : ∀ g p, G g p = G' p g) (t : Rat) {g p : Nat} (hg : g < x.1.gts.length) (hp : p < x.1.pds.length) :
    pairPasses x' G' t s p g = pairPasses x G t s g p := by
  obtain ⟨l1, l2⟩ := h.lengths
  unfold pairPasses
  rw [h.iou p g hp hg, hG, hu.passes hp, hu'.passes (by rw [l2]; exact hg)]

theorem Exchanged.cell_le (h : Exchanged x x') {s : Rat} (hu : SameScore x s) (hu' : SameScore x' s) {G G' : Nat → Nat → Bool}
    (hG : ∀ g p, G g p = G' p g) (t : Rat) (a b : String) : cellOf x G t s a b ≤ cellOf x' G' t s b a := by
  obtain ⟨l1, l2⟩ := h.lengths
  unfold cellOf
  refine length_le_of_inj (pairsWith_nodup _) Prod.swap ?_ (fun _ _ _ _ he => Prod.swap_injective he)
  rintro ⟨g, p⟩ hy
  rw [Prod.swap_prod_mk]
  rw [mem_pairsWith] at hy ⊢
  obtain ⟨⟨hg, hp⟩, hq⟩ := hy
  refine ⟨⟨by rw [l1]; exact hp, by rw [l2]; exact hg⟩, ?_⟩
  rw [h.passes hu hu' hG t hg hp, (h.hasLabel p b).1, (h.hasLabel g a).2, Bool.and_comm (Detection.hasLabel _ _ _)]
  exact hq

theorem Exchanged.missed (h : Exchanged x x') {s : Rat} (hu : SameScore x s) (hu' : SameScore x' s) {G G' : Nat → Nat → Bool}
    (hG : ∀ g p, G g p = G' p g) (t : Rat) (l : String) : missedOf x G t s l = extraOf x' G' t s l := by
  obtain ⟨l1, l2⟩ := h.lengths
  unfold missedOf extraOf
  rw [l1, l2]
  congr 1
  apply List.filter_congr
  intro g hg
  rw [List.mem_range] at hg
  rw [hu'.passes (by rw [l2]; exact hg), Bool.true_and, (h.hasLabel g l).2]
  congr 2
  rw [Bool.eq_iff_iff, List.any_eq_true, List.any_eq_true]
  constructor
  · rintro ⟨p, hp, hq⟩
    exact ⟨p, hp, by rw [h.passes hu hu' hG t hg (List.mem_range.1 hp)]; exact hq⟩
  · rintro ⟨p, hp, hq⟩
    exact ⟨p, hp, by rw [h.passes hu hu' hG t hg (List.mem_range.1 hp)] at hq; exact hq⟩

end Exchange

/-- **C116.** The roles of ground truths and predictions are exchanged in every detection, with the same boxes and labels. Predictions have one label, and
all predictions of a detection have one score, which passes the score threshold. Then the confusion matrix is transposed, and unmatched ground truths and
unmatched predictions are exchanged, at every IoU threshold. Equal overlaps are included. -/
theorem C116_transpose (e e' : Built) (hH : HistoryOk e.calls.flatten) (hH' : HistoryOk e'.calls.flatten) (hO : OneLabel e.calls.flatten)
    (hO' : OneLabel e'.calls.flatten) (hS : SizesOk (Loader.init.addAll e.calls)) (hS' : SizesOk (Loader.init.addAll e'.calls)) {s : Rat}
    (h : List.Forall₂ (fun x x' => Exchanged x x' ∧ SameScore x s ∧ SameScore x' s) e.calls.flatten e'.calls.flatten) (t : Rat) :
    (∀ a b, e.cell t s a b = e'.cell t s b a) ∧ (∀ l, e.missed t s l = e'.spurious t s l) ∧ (∀ l, e.spurious t s l = e'.missed t s l) := by
  obtain ⟨M, hM⟩ := matching_exists e hH hO hS
  obtain ⟨M', hM'⟩ := matching_exists e' hH' hO' hS'
  have hcor : ∀ {x x'}, x ∈ e.calls.flatten → x' ∈ e'.calls.flatten → Exchanged x x' → SameScore x s → SameScore x' s →
      ∀ g p, M x g p = M' x' p g := by
    intro x x' hx hx' hs hu hu' g p
    rw [firstListed_unique (hM x hx) (hs.matching hu hu' (hM' x' hx'))]
  obtain ⟨a1, a2, a3⟩ := C115_exact e hH hO hS M hM t s
  obtain ⟨b1, b2, b3⟩ := C115_exact e' hH' hO' hS' M' hM' t s
  refine ⟨fun a b => ?_, fun l => ?_, fun l => ?_⟩
  · rw [a1, b1]
    refine sum_forall₂ h (fun x hx y hy hxy => ?_)
    obtain ⟨hs, hu, hu'⟩ := hxy
    have hc := hcor hx hy hs hu hu'
    exact Nat.le_antisymm (hs.cell_le hu hu' hc t a b) (hs.symm.cell_le hu' hu (fun g p => (hc p g).symm) t b a)
  · rw [a2, b3]
    refine sum_forall₂ h (fun x hx y hy hxy => ?_)
    obtain ⟨hs, hu, hu'⟩ := hxy
    exact hs.missed hu hu' (hcor hx hy hs hu hu') t l
  · rw [a3, b2]
    refine sum_forall₂ h (fun x hx y hy hxy => ?_)
    obtain ⟨hs, hu, hu'⟩ := hxy
    have hc := hcor hx hy hs hu hu'
    exact (hs.symm.missed hu' hu (fun g p => (hc p g).symm) t l).symm

/-! ## Samples -/

/-- Two predictions overlap one ground truth equally and have the same score. -/
def evenDet : Det × (Nat → Nat → Rat) :=
  (⟨"d", [⟨"g", ["a"], [], ""⟩], [⟨"p", ["a"], [1 / 2], ""⟩, ⟨"q", ["b"], [1 / 2], ""⟩], ""⟩, fun _ _ => 3 / 5)

/-- The predictions in the other order. -/
def evenDet' : Det × (Nat → Nat → Rat) :=
  (⟨"d", [⟨"g", ["a"], [], ""⟩], [⟨"q", ["b"], [1 / 2], ""⟩, ⟨"p", ["a"], [1 / 2], ""⟩], ""⟩, fun _ _ => 3 / 5)

/-- The first ground truth with the first prediction. -/
def firstPair (g p : Nat) : Bool := decide (g = 0 ∧ p = 0)

theorem even_ok : HistoryOk [evenDet] ∧ HistoryOk [evenDet'] ∧ OneLabel [evenDet] ∧ OneLabel [evenDet'] ∧
    SizesOk (Loader.init.addAll [[evenDet]]) ∧ SizesOk (Loader.init.addAll [[evenDet']]) := by
  refine ⟨⟨?_, ?_, ?_⟩, ⟨?_, ?_, ?_⟩, ?_, ?_, ⟨by decide +kernel, by decide +kernel, by decide +kernel, by decide +kernel⟩,
    ⟨by decide +kernel, by decide +kernel, by decide +kernel, by decide +kernel⟩⟩
  · simp [evenDet]
  · simp [evenDet]
  · intro x hx p g
    rw [List.mem_singleton.1 hx]
    simp only [evenDet]
    norm_num
  · simp [evenDet']
  · simp [evenDet']
  · intro x hx p g
    rw [List.mem_singleton.1 hx]
    simp only [evenDet']
    norm_num
  · unfold OneLabel
    simp [evenDet]
  · unfold OneLabel
    simp [evenDet']

theorem even_matching : FirstListed evenDet firstPair ∧ FirstListed evenDet' firstPair := by
  constructor
  · refine ⟨?_, ?_, ?_⟩
    · intro g p h
      obtain ⟨rfl, rfl⟩ := of_decide_eq_true h
      exact ⟨by decide, by decide, by decide +kernel⟩
    · intro g p g' p' h h' _
      obtain ⟨rfl, rfl⟩ := of_decide_eq_true h
      obtain ⟨rfl, rfl⟩ := of_decide_eq_true h'
      exact ⟨rfl, rfl⟩
    · intro g p hg hp _
      have hg : g < 1 := hg
      have hp : p < 2 := hp
      refine ⟨0, 0, rfl, Or.inl (by omega), Or.inr ⟨?_, Or.inr ⟨rfl, by omega, by omega⟩⟩⟩
      rcases p with _ | _ | p
      · rfl
      · decide +kernel
      · omega
  · refine ⟨?_, ?_, ?_⟩
    · intro g p h
      obtain ⟨rfl, rfl⟩ := of_decide_eq_true h
      exact ⟨by decide, by decide, by decide +kernel⟩
    · intro g p g' p' h h' _
      obtain ⟨rfl, rfl⟩ := of_decide_eq_true h
      obtain ⟨rfl, rfl⟩ := of_decide_eq_true h'
      exact ⟨rfl, rfl⟩
    · intro g p hg hp _
      have hg : g < 1 := hg
      have hp : p < 2 := hp
      refine ⟨0, 0, rfl, Or.inl (by omega), Or.inr ⟨?_, Or.inr ⟨rfl, by omega, by omega⟩⟩⟩
      rcases p with _ | _ | p
      · rfl
      · decide +kernel
      · omega

theorem even_rearranged : Rearranged evenDet evenDet' := by
  refine ⟨id, id, fun p => 1 - p, fun p => 1 - p, ?_, ?_, ?_, ?_, ?_⟩
  · intro g b hb
    exact ⟨hb, rfl⟩
  · intro g b hb
    exact ⟨hb, rfl⟩
  · intro p a ha
    rcases p with _ | _ | p <;> simp_all [evenDet, evenDet']
  · intro p a ha
    rcases p with _ | _ | p <;> simp_all [evenDet, evenDet']
  · intro p a g b ha hb
    rfl

/-- **C115 is false of the code for ties**: two predictions with the labels "a" and "b", the same score and the same overlap with a ground truth "a". Listed
in one order the matrix has a correct pair, in the other a confusion. -/
theorem C115_violation : ¬ MatrixOrderFree := by
  intro h
  obtain ⟨e, he⟩ := built_exists [[evenDet]]
  obtain ⟨e', he'⟩ := built_exists [[evenDet']]
  obtain ⟨k1, k2, k3, k4, k5, k6⟩ := even_ok
  have f : e.calls.flatten = [evenDet] := by rw [he]; rfl
  have f' : e'.calls.flatten = [evenDet'] := by rw [he']; rfl
  have q := (h e e' (f ▸ k1) (f' ▸ k2) (f ▸ k3) (f' ▸ k4) (he ▸ k5) (he' ▸ k6) (by
    rw [f, f']
    exact List.Forall₂.cons even_rearranged List.Forall₂.nil) (1 / 2) (1 / 2)).1 "a" "a"
  have a := (C115_exact e (f ▸ k1) (f ▸ k3) (he ▸ k5) (fun _ => firstPair) (by
    rw [f]
    intro x hx
    rw [List.mem_singleton.1 hx]
    exact even_matching.1) (1 / 2) (1 / 2)).1 "a" "a"
  have b := (C115_exact e' (f' ▸ k2) (f' ▸ k4) (he' ▸ k6) (fun _ => firstPair) (by
    rw [f']
    intro x hx
    rw [List.mem_singleton.1 hx]
    exact even_matching.2) (1 / 2) (1 / 2)).1 "a" "a"
  rw [a, b, f, f'] at q
  exact absurd q (by decide +kernel)

/-- The hypotheses of `C115_exact` and `C115_matching` hold for a dataset with a tie, one correct pair and one unmatched prediction. -/
example : ∃ e : Built, (HistoryOk e.calls.flatten ∧ OneLabel e.calls.flatten ∧ SizesOk (Loader.init.addAll e.calls)) ∧
    evenDet ∈ e.calls.flatten ∧ (∀ x ∈ e.calls.flatten, FirstListed x firstPair) ∧
    cellOf evenDet firstPair (1 / 2) (1 / 2) "a" "a" = 1 ∧ extraOf evenDet firstPair (1 / 2) (1 / 2) "b" = 1 := by
  obtain ⟨e, he⟩ := built_exists [[evenDet]]
  have f : e.calls.flatten = [evenDet] := by rw [he]; rfl
  refine ⟨e, ⟨f ▸ even_ok.1, f ▸ even_ok.2.2.1, he ▸ even_ok.2.2.2.2.1⟩, by rw [f]; exact List.mem_singleton_self _, ?_, by decide +kernel, by decide +kernel⟩
  rw [f]
  intro x hx
  rw [List.mem_singleton.1 hx]
  exact even_matching.1

/-- Two predictions with different scores compete for a ground truth. -/
def oddDet : Det × (Nat → Nat → Rat) :=
  (⟨"d", [⟨"g", ["a"], [], ""⟩], [⟨"p", ["a"], [1 / 2], ""⟩, ⟨"q", ["b"], [3 / 4], ""⟩], ""⟩, fun _ _ => 3 / 5)

/-- The predictions in the other order. -/
def oddDet' : Det × (Nat → Nat → Rat) :=
  (⟨"d", [⟨"g", ["a"], [], ""⟩], [⟨"q", ["b"], [3 / 4], ""⟩, ⟨"p", ["a"], [1 / 2], ""⟩], ""⟩, fun _ _ => 3 / 5)

/-- The hypotheses of `C115_order_partial` hold for two orders of competing predictions. -/
example : ∃ e e' : Built, HistoryOk e.calls.flatten ∧ HistoryOk e'.calls.flatten ∧ OneLabel e.calls.flatten ∧ OneLabel e'.calls.flatten ∧
    SizesOk (Loader.init.addAll e.calls) ∧ SizesOk (Loader.init.addAll e'.calls) ∧
    List.Forall₂ (fun x x' => Rearranged x x' ∧ ClearOrder x) e.calls.flatten e'.calls.flatten ∧ e.calls.flatten ≠ e'.calls.flatten := by
  obtain ⟨e, he⟩ := built_exists [[oddDet]]
  obtain ⟨e', he'⟩ := built_exists [[oddDet']]
  have f : e.calls.flatten = [oddDet] := by rw [he]; rfl
  have f' : e'.calls.flatten = [oddDet'] := by rw [he']; rfl
  refine ⟨e, e', ?_⟩
  rw [f, f', he, he']
  refine ⟨⟨?_, ?_, ?_⟩, ⟨?_, ?_, ?_⟩, ?_, ?_, ⟨by decide +kernel, by decide +kernel, by decide +kernel, by decide +kernel⟩,
    ⟨by decide +kernel, by decide +kernel, by decide +kernel, by decide +kernel⟩, ?_, ?_⟩
  · simp [oddDet]
  · simp [oddDet]
  · intro x hx p g
    rw [List.mem_singleton.1 hx]
    simp only [oddDet]
    norm_num
  · simp [oddDet']
  · simp [oddDet']
  · intro x hx p g
    rw [List.mem_singleton.1 hx]
    simp only [oddDet']
    norm_num
  · unfold OneLabel
    simp [oddDet]
  · unfold OneLabel
    simp [oddDet']
  · refine List.Forall₂.cons ⟨⟨id, id, fun p => 1 - p, fun p => 1 - p, ?_, ?_, ?_, ?_, ?_⟩, ?_⟩ List.Forall₂.nil
    · intro g b hb
      exact ⟨hb, rfl⟩
    · intro g b hb
      exact ⟨hb, rfl⟩
    · intro p a ha
      rcases p with _ | _ | p <;> simp_all [oddDet, oddDet']
    · intro p a ha
      rcases p with _ | _ | p <;> simp_all [oddDet, oddDet']
    · intro p a g b ha hb
      rfl
    · intro g p g' p' hg hp hg' hp' _ _ _ hs _
      have hg : g < 1 := hg
      have hg' : g' < 1 := hg'
      have hp : p < 2 := hp
      have hp' : p' < 2 := hp'
      refine ⟨by omega, ?_⟩
      rcases p with _ | _ | p
      · rcases p' with _ | _ | p'
        · rfl
        · exact absurd hs (by decide +kernel)
        · omega
      · rcases p' with _ | _ | p'
        · exact absurd hs (by decide +kernel)
        · rfl
        · omega
      · omega
  · intro h
    have := congrArg (fun l : History => l.map (fun x => x.1.pds.map Ann.uid)) h
    exact absurd this (by decide +kernel)

/-- Two annotators: the ground truth overlaps two boxes of the other equally. -/
def oneBox : Det × (Nat → Nat → Rat) :=
  (⟨"d", [⟨"g", ["a"], [], ""⟩], [⟨"p", ["b"], [1], ""⟩, ⟨"q", ["a"], [1], ""⟩], ""⟩, fun p _ => if p < 2 then 3 / 5 else 0)

/-- The annotators exchanged. -/
def twoBoxes : Det × (Nat → Nat → Rat) :=
  (⟨"d", [⟨"p", ["b"], [], ""⟩, ⟨"q", ["a"], [], ""⟩], [⟨"g", ["a"], [1], ""⟩], ""⟩, fun _ g => if g < 2 then 3 / 5 else 0)

/-- The hypotheses of `C116_transpose` hold for two annotators with equal overlaps, one pair with different labels and one unmatched annotation. -/
example : ∃ e e' : Built, (HistoryOk e.calls.flatten ∧ HistoryOk e'.calls.flatten ∧ OneLabel e.calls.flatten ∧ OneLabel e'.calls.flatten ∧
    SizesOk (Loader.init.addAll e.calls) ∧ SizesOk (Loader.init.addAll e'.calls) ∧
    List.Forall₂ (fun x x' => Exchanged x x' ∧ SameScore x (1 / 2) ∧ SameScore x' (1 / 2)) e.calls.flatten e'.calls.flatten) ∧
    cellOf oneBox firstPair (1 / 2) (1 / 2) "a" "b" = 1 ∧ cellOf twoBoxes firstPair (1 / 2) (1 / 2) "b" "a" = 1 ∧
    extraOf oneBox firstPair (1 / 2) (1 / 2) "a" = 1 ∧ missedOf twoBoxes firstPair (1 / 2) (1 / 2) "a" = 1 := by
  obtain ⟨e, he⟩ := built_exists [[oneBox]]
  obtain ⟨e', he'⟩ := built_exists [[twoBoxes]]
  have f : e.calls.flatten = [oneBox] := by rw [he]; rfl
  have f' : e'.calls.flatten = [twoBoxes] := by rw [he']; rfl
  refine ⟨e, e', ?_, by decide +kernel, by decide +kernel, by decide +kernel, by decide +kernel⟩
  rw [f, f', he, he']
  refine ⟨⟨?_, ?_, ?_⟩, ⟨?_, ?_, ?_⟩, ?_, ?_, ⟨by decide +kernel, by decide +kernel, by decide +kernel, by decide +kernel⟩,
    ⟨by decide +kernel, by decide +kernel, by decide +kernel, by decide +kernel⟩, ?_⟩
  · simp [oneBox]
  · simp [oneBox]
  · intro x hx p g
    rw [List.mem_singleton.1 hx]
    simp only [oneBox]
    split <;> norm_num
  · simp [twoBoxes]
  · simp [twoBoxes]
  · intro x hx p g
    rw [List.mem_singleton.1 hx]
    simp only [twoBoxes]
    split <;> norm_num
  · unfold OneLabel
    simp [oneBox]
  · unfold OneLabel
    simp [twoBoxes]
  · refine List.Forall₂.cons ⟨⟨rfl, rfl, ?_⟩, ⟨1, by decide +kernel, by norm_num, ?_⟩, ⟨1, by decide +kernel, by norm_num, ?_⟩⟩ List.Forall₂.nil
    · intro p g _ _
      rfl
    · simp [oneBox]
    · simp [twoBoxes]

end Verif.Detection
