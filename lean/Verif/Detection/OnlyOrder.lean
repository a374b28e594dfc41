import Verif.Detection.OnlyProps

/-!
# The order of the pairs in a cache

Lemmas for C122: pairs with the same score and IoU stand in the order of datum, ground truth and prediction, before and after a filter.
-/

namespace Verif.Detection

open Verif.Cache (sortBy SortedBy StableOf sorted_stable_unique sortBy_sorted sortBy_stable)

/-- Datum, ground truth and prediction. -/
def spot (r : Row) : List Int := [r.datum, r.gt, r.pd]

/-- The row is a pair. -/
def IsPair (r : Row) : Prop := 0 ≤ r.gt ∧ 0 ≤ r.pd

instance (r : Row) : Decidable (IsPair r) := by unfold IsPair; infer_instance

/-- The order of pairs that are ranked equal. -/
def Ahead (a b : Row) : Prop := IsPair a → IsPair b → rankKey a = rankKey b → spot a < spot b ∨ (spot a = spot b ∧ a.pl ≠ b.pl)

theorem spot_lt {a b : Row} : spot a < spot b ↔ a.datum < b.datum ∨ (a.datum = b.datum ∧ (a.gt < b.gt ∨ (a.gt = b.gt ∧ a.pd < b.pd))) := by
  unfold spot
  rw [List.cons_lt_cons_iff, List.cons_lt_cons_iff, List.cons_lt_cons_iff]
  simp

theorem spot_eq {a b : Row} : spot a = spot b ↔ a.datum = b.datum ∧ a.gt = b.gt ∧ a.pd = b.pd := by
  unfold spot
  simp

theorem zip_fst_sublist {α β : Type} (l : List α) (m : List β) : ((l.zip m).map Prod.fst).Sublist l := by
  induction l generalizing m with
  | nil => simp
  | cons x l ih =>
    cases m with
    | nil => simp
    | cons y m => exact (ih m).cons_cons x

theorem zipIdx_up {α : Type} (l : List α) : l.zipIdx.Pairwise (fun x y => x.2 < y.2) := by
  have : (l.zipIdx.map Prod.snd).Pairwise (· < ·) := by
    rw [List.zipIdx_map_snd]
    exact List.pairwise_lt_range'
  exact List.pairwise_map.1 this

theorem rowsOf_ahead {L : List String} {d : Det} {iou : Nat → Nat → Rat} {k g0 p0 : Nat} (h1 : ∀ b ∈ d.gts, b.labels.length = 1)
    (hn : ∀ a ∈ d.pds, a.labels.Nodup) (hl : ∀ a ∈ d.pds, ∀ z ∈ a.labels.zip a.scores, z.1 ∈ L) :
    (rowsOf L d iou k g0 p0).Pairwise (fun a b => Ahead a.row b.row) := by
  have hpd : ∀ (y : Ann × Nat) (r : FRow), r ∈ (pdSteps d k p0 y).flatMap (fun s => s.out (idOf L s.gl) (idOf L s.pl)) → ¬ IsPair r.row := by
    intro y r hr
    obtain ⟨_, _, _, rfl⟩ := mem_pdSteps.1 hr
    simp [IsPair, pdRow]
  have hnot : ∀ {l : List FRow}, (∀ r ∈ l, ¬ IsPair r.row) → l.Pairwise (fun a b => Ahead a.row b.row) := by
    intro l h
    rw [List.pairwise_iff_forall_sublist]
    intro a b hab ha
    exact absurd ha (h a (hab.subset (by simp)))
  have hpr : ∀ (x y : Ann × Nat) (r : FRow), r ∈ ((if pdAlone d iou y.2 then pdSteps d k p0 y else []) ++
      (if EPSILON ≤ iou y.2 x.2 then x.1.labels.flatMap (fun glabel => (y.1.labels.zip y.1.scores).map (fun z =>
        (⟨some glabel, some z.1, fun gl pl =>
          [pairRow d k x.1 y.1 ((g0 + x.2 : Nat) : Int) ((p0 + y.2 : Nat) : Int) gl pl glabel z.1 (iou y.2 x.2) z.2]⟩ : Step))) else [])).flatMap
        (fun s => s.out (idOf L s.gl) (idOf L s.pl)) →
      ¬ IsPair r.row ∨ (r.row.datum = k ∧ r.row.gt = ((g0 + x.2 : Nat) : Int) ∧ r.row.pd = ((p0 + y.2 : Nat) : Int)) := by
    intro x y r hr
    rw [List.flatMap_append, List.mem_append] at hr
    rcases hr with hr | hr
    · split at hr
      · exact Or.inl (hpd y r hr)
      · cases hr
    · split at hr
      · rw [List.flatMap_assoc, List.mem_flatMap] at hr
        obtain ⟨l, _, hr⟩ := hr
        rw [List.flatMap_map, List.mem_flatMap] at hr
        obtain ⟨z, _, hr⟩ := hr
        rw [List.mem_singleton] at hr
        subst hr
        exact Or.inr ⟨rfl, rfl, rfl⟩
      · cases hr
  have hgt : ∀ (x : Ann × Nat) (r : FRow), r ∈ (gtSteps d iou k g0 p0 x).flatMap (fun s => s.out (idOf L s.gl) (idOf L s.pl)) →
      ¬ IsPair r.row ∨ (r.row.datum = k ∧ r.row.gt = ((g0 + x.2 : Nat) : Int)) := by
    intro x r hr
    unfold gtSteps at hr
    rw [List.flatMap_cons, List.mem_append] at hr
    rcases hr with hr | hr
    · dsimp only at hr
      split at hr
      · rw [List.mem_singleton] at hr
        subst hr
        exact Or.inl (by simp [IsPair, gtRow])
      · cases hr
    · rw [List.flatMap_assoc, List.mem_flatMap] at hr
      obtain ⟨y, _, hr⟩ := hr
      exact (hpr x y r hr).imp id (fun h => ⟨h.1, h.2.1⟩)
  unfold rowsOf detSteps
  split
  · rw [List.flatMap_assoc, List.pairwise_flatMap]
    constructor
    · intro x hx
      have hone : ∃ v, x.1.labels = [v] := by
        obtain ⟨a, i⟩ := x
        exact List.length_eq_one_iff.1 (h1 a (List.mem_of_getElem? (mem_zipIdx'.1 hx)))
      unfold gtSteps
      rw [List.flatMap_cons, List.pairwise_append]
      refine ⟨?_, ?_, ?_⟩
      · dsimp only
        split <;> simp
      · rw [List.flatMap_assoc, List.pairwise_flatMap]
        constructor
        · intro y hy
          have hy' : y.1 ∈ d.pds := by
            obtain ⟨a, i⟩ := y
            exact List.mem_of_getElem? (mem_zipIdx'.1 hy)
          rw [List.flatMap_append, List.pairwise_append]
          refine ⟨?_, ?_, ?_⟩
          · apply hnot
            intro r hr
            split at hr
            · exact hpd y r hr
            · cases hr
          · split
            · obtain ⟨v, hv⟩ := hone
              rw [hv, List.flatMap_singleton, List.flatMap_map, List.pairwise_flatMap]
              constructor
              · intro z _
                exact List.pairwise_singleton _ _
              · have hz : (y.1.labels.zip y.1.scores).Pairwise (fun u w => u.1 ≠ w.1) := by
                  have : ((y.1.labels.zip y.1.scores).map Prod.fst).Nodup :=
                    (hn y.1 hy').sublist (zip_fst_sublist _ _)
                  exact List.pairwise_map.1 this
                refine List.Pairwise.imp_of_mem ?_ hz
                intro u w hu hw huw a ha b hb _ _ _
                rw [List.mem_singleton] at ha hb
                subst ha
                subst hb
                refine Or.inr ⟨rfl, ?_⟩
                show (L.idxOf u.1 : Int) ≠ (L.idxOf w.1 : Int)
                intro he
                exact huw ((idxOf_eq_iff (hl y.1 hy' u hu)).1 he)
            · exact List.Pairwise.nil
          · intro a ha b _ pa
            split at ha
            · exact absurd pa (hpd y a ha)
            · cases ha
        · refine (zipIdx_up d.pds).imp ?_
          intro y y' hyy a ha b hb pa pb _
          obtain ⟨e1, e2, e3⟩ := (hpr x y a ha).resolve_left (fun h => h pa)
          obtain ⟨f1, f2, f3⟩ := (hpr x y' b hb).resolve_left (fun h => h pb)
          left
          rw [spot_lt]
          right
          refine ⟨by rw [e1, f1], Or.inr ⟨by rw [e2, f2], ?_⟩⟩
          rw [e3, f3]
          omega
      · intro a ha b _ pa
        dsimp only at ha
        split at ha
        · rw [List.mem_singleton] at ha
          subst ha
          simp [IsPair, gtRow] at pa
        · cases ha
    · refine (zipIdx_up d.gts).imp ?_
      intro x y hxy a ha b hb pa pb _
      obtain ⟨e1, e2⟩ := (hgt x a ha).resolve_left (fun h => h pa)
      obtain ⟨f1, f2⟩ := (hgt y b hb).resolve_left (fun h => h pb)
      left
      rw [spot_lt]
      right
      refine ⟨by rw [e1, f1], Or.inl ?_⟩
      rw [e2, f2]
      omega
  · rw [List.flatMap_assoc]
    apply hnot
    intro r hr
    obtain ⟨y, _, hr⟩ := List.mem_flatMap.1 hr
    exact hpd y r hr

theorem loader_ahead {calls : List History} (hH : HistoryOk calls.flatten) (hD : DistinctLabels calls.flatten) : (loaderRows calls).Pairwise Ahead := by
  rw [← loaderPieces_flatten, List.pairwise_flatten]
  constructor
  · intro p hp
    rw [loaderPieces_eq, List.mem_map] at hp
    obtain ⟨k, hk, he⟩ := hp
    rw [List.mem_range] at hk
    simp only [List.getElem?_eq_getElem hk] at he
    have hm := List.getElem_mem hk
    rw [← he, List.pairwise_map]
    refine rowsOf_ahead (hH.gtLabel _ hm) (hD _ hm) ?_
    intro a ha z hz
    obtain ⟨i, hi, rfl⟩ := List.getElem_of_mem ha
    obtain ⟨f, hf, hs⟩ := says_pd (L := (Loader.init.addAll calls).labels) (x := calls.flatten[k]) (k := k) (g0 := gtOffset calls.flatten k)
      (p0 := pdOffset calls.flatten k) (hH.gtLabel _ hm) (p := i) (v := z.1) (c := z.2) (List.getElem?_eq_getElem hi) hz
    exact (isRow_labels calls (List.getElem?_eq_getElem hk) hf).2 _ hs.label
  · refine (loaderPieces_asc calls).imp ?_
    intro p p' hlt a ha b hb _ _ _
    exact Or.inl (spot_lt.2 (Or.inl (hlt a ha b hb)))

theorem sorted_ahead {rows : List Row} (h : rows.Pairwise Ahead) : (sortBy rankKey rows).Pairwise Ahead := by
  rw [List.pairwise_iff_forall_sublist] at h ⊢
  intro a b hab pa pb hk
  have hs : [a, b].Sublist rows := by
    have h1 := hab.filter (fun x => decide (rankKey x = rankKey b))
    have e1 : [a, b].filter (fun x => decide (rankKey x = rankKey b)) = [a, b] := by simp [hk]
    have e2 : (sortBy rankKey rows).filter (fun x => decide (rankKey x = rankKey b)) = rows.filter (fun x => decide (rankKey x = rankKey b)) := by
      convert sortBy_stable rankKey rows (rankKey b)
    rw [e1, e2] at h1
    exact h1.trans List.filter_sublist
  exact h hs pa pb hk

theorem tables_ahead {calls : List History} (hH : HistoryOk calls.flatten) (hD : DistinctLabels calls.flatten) {tables : List (List FRow)}
    (h : StoredSorted (Loader.init.addAll calls).rows tables) : (tables.flatten.map FRow.row).Pairwise Ahead := by
  obtain ⟨groups, hg, rfl⟩ := h
  have hall : (groups.flatten.flatten.map FRow.row).Pairwise Ahead := by
    rw [hg, flatten_nonempty]
    exact loader_ahead hH hD
  have hd := pairwise_nonempty_flatten (R := fun x y => x.row.datum < y.row.datum) hg (loader_ascending calls)
  rw [List.map_flatten, List.map_map, List.pairwise_flatten]
  constructor
  · intro t ht
    obtain ⟨g, hgm, rfl⟩ := List.mem_map.1 ht
    rw [Function.comp_apply, sortBy_row]
    apply sorted_ahead
    refine hall.sublist (List.Sublist.map _ ?_)
    obtain ⟨u, v, rfl⟩ := List.append_of_mem hgm
    rw [List.flatten_append, List.flatten_cons, List.flatten_append, List.flatten_append]
    exact (List.sublist_append_left _ _).trans (List.sublist_append_right _ _)
  · rw [List.pairwise_map]
    refine hd.imp ?_
    intro a b hab x hx y hy _ _ _
    obtain ⟨fx, hfx, rfl⟩ := List.mem_map.1 hx
    obtain ⟨fy, hfy, rfl⟩ := List.mem_map.1 hy
    exact Or.inl (spot_lt.2 (Or.inl (hab fx ((List.mergeSort_perm _ _).mem_iff.1 hfx) fy ((List.mergeSort_perm _ _).mem_iff.1 hfy))))

theorem filtered_ahead {calls : List History} {tables : List (List FRow)} (hs : StoredSorted (Loader.init.addAll calls).rows tables)
    (hH : HistoryOk calls.flatten) (hD : DistinctLabels calls.flatten) (q : Asks) : (filteredRows q tables).Pairwise Ahead := by
  have hin : ∀ r ∈ tables.flatten, r ∈ (Loader.init.addAll calls).rows.flatten := fun r hr => (stored_mem_iff hs.stored r).1 hr
  rw [filteredRows_eq hs hD q, List.pairwise_map]
  have hup := tables_ahead hH hD hs
  rw [List.pairwise_map] at hup
  have hup' : (tables.flatten.filter (valueOf q.d)).Pairwise (fun a b => (a ∈ (Loader.init.addAll calls).rows.flatten ∧
      b ∈ (Loader.init.addAll calls).rows.flatten) ∧ Ahead a.row b.row) := by
    have hsub : (tables.flatten.filter (valueOf q.d)).Sublist tables.flatten := List.filter_sublist
    rw [List.pairwise_iff_forall_sublist] at hup ⊢
    intro a b hab
    have hab' := hab.trans hsub
    exact ⟨⟨hin a (hab'.subset (by simp)), hin b (hab'.subset (by simp))⟩, hup hab'⟩
  rw [List.pairwise_filterMap]
  refine hup'.imp ?_
  rintro a b ⟨⟨ha, hb⟩, hab⟩ a' ha' b' hb' pa pb hk
  obtain ⟨vg, vp, rfl, hv⟩ := stepRow_some ha'
  obtain ⟨wg, wp, rfl, hw⟩ := stepRow_some hb'
  have ca := clear_comes (loader_form ha) hv
  have cb := clear_comes (loader_form hb) hw
  have full : ∀ {r0 r : Row}, Comes r0 r → IsPair r → r = r0 := by
    intro r0 r h hp
    obtain ⟨e1, e2⟩ := h.gt hp.1
    obtain ⟨e3, e4, e5⟩ := h.pd hp.2
    have e6 := h.iou hp.1 hp.2
    have e7 := h.datum
    cases r
    cases r0
    simp_all
  have ea := full ca pa
  have eb := full cb pb
  rw [ea, eb] at hk ⊢
  rw [ea] at pa
  rw [eb] at pb
  exact hab pa pb hk

end Verif.Detection
