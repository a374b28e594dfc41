import Verif.Classification.ReportExamplesProps
import Verif.Classification.DatumReportProps

/-! # C64: the confusion matrix with examples and a filter on datums -/

namespace Verif.Classification

/-- The classifications whose number satisfies the filter. -/
def keptList (cs : List Classif) (D : Nat → Bool) : List Classif := (cs.zipIdx.filter (fun x => D x.2)).map Prod.fst

theorem mem_keptList {cs : List Classif} {D : Nat → Bool} {k : Nat} {c : Classif} (hk : cs[k]? = some c) (hD : D k = true) : c ∈ keptList cs D :=
  List.mem_map.2 ⟨(c, k), List.mem_filter.2 ⟨List.mem_zipIdx_iff_getElem?.2 hk, hD⟩, rfl⟩

open Classical in
/-- Their numbers, of those satisfying a predicate. -/
noncomputable def datumsKept (cs : List Classif) (D : Nat → Bool) (P : Classif → Prop) : List Int :=
  (cs.zipIdx.filter (fun x => D x.2 && decide (P x.1))).map (fun x => ((x.2 : Nat) : Int))

theorem mem_datumsKept {cs : List Classif} {D : Nat → Bool} {P : Classif → Prop} {d : Int} :
    d ∈ datumsKept cs D P ↔ ∃ k c, cs[k]? = some c ∧ D k = true ∧ P c ∧ d = (k : Nat) := by
  classical
  simp only [datumsKept, List.mem_map, List.mem_filter]
  constructor
  · rintro ⟨⟨c, k⟩, ⟨h1, h2⟩, rfl⟩
    simp only [Bool.and_eq_true, decide_eq_true_eq] at h2
    exact ⟨k, c, by simpa using List.mem_zipIdx_iff_getElem?.1 h1, h2.1, h2.2, rfl⟩
  · rintro ⟨k, c, h1, hD, h2, rfl⟩
    exact ⟨(c, k), ⟨List.mem_zipIdx_iff_getElem?.2 h1, by simpa using ⟨hD, h2⟩⟩, rfl⟩

theorem nodup_datumsKept (cs : List Classif) (D : Nat → Bool) (P : Classif → Prop) : (datumsKept cs D P).Nodup := by
  classical
  unfold datumsKept
  have h : ((cs.zipIdx).map (fun x => ((x.2 : Nat) : Int))).Nodup := by
    have e : (cs.zipIdx).map (fun x => ((x.2 : Nat) : Int)) = (List.range cs.length).map (fun k : Nat => (k : Int)) := by
      rw [List.range_eq_range', ← List.zipIdx_map_snd 0 cs, List.map_map]
      rfl
    rw [e]
    exact List.nodup_range.map (fun a b h => Int.natCast_inj.1 h)
  exact h.sublist (List.filter_sublist.map _)

open Classical in
theorem uids_datumsKept (cs : List Classif) (D : Nat → Bool) (P : Classif → Prop) :
    (datumsKept cs D P).map (uidAt cs) = ((keptList cs D).filter (fun c => decide (P c))).map Classif.uid := by
  unfold datumsKept
  rw [List.map_map]
  have e1 : ∀ x ∈ cs.zipIdx.filter (fun x => D x.2 && decide (P x.1)),
      (uidAt cs ∘ fun x : Classif × Nat => ((x.2 : Nat) : Int)) x = x.1.uid := by
    rintro ⟨c, k⟩ hx
    have := List.mem_zipIdx_iff_getElem?.1 (List.mem_filter.1 hx).1
    simp [uidAt, this]
  rw [List.map_congr_left e1]
  unfold keptList
  rw [List.filter_map, List.filter_filter, List.map_map]
  congr 1
  apply List.filter_congr
  intro x _
  rw [Bool.and_comm]
  rfl

theorem part_kept {L : List String} {cs : List Classif} {D : Nat → Bool} {frags : List (List Row)}
    (hf : FragmentsOf frags ((cs.zipIdx.map (fun x => rowsOf L x.2 x.1)).flatten.filter (fun r => D r.datum.toNat))) :
    ∀ f ∈ frags, Part L cs f := by
  intro f hfm
  have hsub : ∀ r ∈ f, r ∈ (cs.zipIdx.map (fun x => rowsOf L x.2 x.1)).flatten ∧ D r.datum.toNat = true := fun r hr =>
    List.mem_filter.1 (hf.perm.subset (List.mem_flatten.2 ⟨f, hfm, hr⟩))
  refine ⟨fun r hr => (hsub r hr).1, ?_⟩
  intro r hr r' hr' hd
  obtain ⟨f', hf', hrf'⟩ := List.mem_flatten.1 (hf.perm.symm.subset (List.mem_filter.2 ⟨hr', by rw [hd]; exact (hsub r hr).2⟩))
  by_cases e : f = f'
  · rw [e]; exact hrf'
  · exfalso
    have : Std.Symm (fun a b : List Row => ∀ x ∈ a, ∀ y ∈ b, x.datum ≠ y.datum) :=
      ⟨fun a b h x hx y hy => (h y hy x hx).symm⟩
    exact hf.aligned.forall hfm hf' e r hr r' hrf' hd.symm

open Classical in
theorem excm_kept {L : List String} {cs : List Classif} (hnd : L.Nodup) (hcov : ∀ c ∈ cs, Covers L c)
    (hin : InRange (cs.zipIdx.map (fun x => rowsOf L x.2 x.1)).flatten L.length) (D : Nat → Bool) (frags : List (List Row))
    (hf : FragmentsOf frags ((cs.zipIdx.map (fun x => rowsOf L x.2 x.1)).flatten.filter (fun r => D r.datum.toNat)))
    (t : Rat) (hm : Bool) :
    ∃ M, evalExCM frags [t] hm L.length = some [M] ∧
      (∀ (i j : Nat) (g p : String), L[i]? = some g → L[j]? = some p →
        ∃ row cell, M.cells[i]? = some row ∧ row[j]? = some cell ∧
          cell.count = specCell (keptList cs D) t hm g p ∧
          (cell.examples.map Prod.fst).Perm
            (((keptList cs D).filter (fun c => decide (c.gt = g ∧ ∃ i, c.preds[i]? = some p ∧ Shown t hm c i))).map
              Classif.uid) ∧
          ∀ x ∈ cell.examples, ∃ c ∈ keptList cs D, c.uid = x.1 ∧ c.gt = g ∧
            ∃ i, c.preds[i]? = some p ∧ c.scores[i]? = some x.2 ∧ Shown t hm c i) ∧
      (∀ (i : Nat) (g : String), L[i]? = some g →
        ∃ cell, M.unmatched[i]? = some cell ∧ cell.count = specMissed (keptList cs D) t hm g ∧
          cell.examples.Perm (((keptList cs D).filter (fun c => decide (c.gt = g ∧ ∀ i, ¬ Shown t hm c i))).map
            Classif.uid)) := by
  have hpart := part_kept hf
  have hkept : ∀ f ∈ frags, ∀ r ∈ f, D r.datum.toNat = true := fun f hfm r hr =>
    (List.mem_filter.1 (hf.perm.subset (List.mem_flatten.2 ⟨f, hfm, hr⟩))).2
  have hinf : ∀ f ∈ frags, InRange f L.length := fun f hfm r hr =>
    hin r ((hpart f hfm).sub r hr)
  refine ⟨_, evalExCM_eq (uid := uidAt cs) t hm frags hinf
    (fun f hfm r hr => uidOf_part (hpart f hfm) hr), ?_, ?_⟩
  · intro i j g p hi hj
    have hil := (List.getElem?_eq_some_iff.1 hi).1
    have hjl := (List.getElem?_eq_some_iff.1 hj).1
    have eg : g = L[i] := by rw [List.getElem?_eq_getElem hil] at hi; exact (Option.some.inj hi).symm
    have ep : p = L[j] := by rw [List.getElem?_eq_getElem hjl] at hj; exact (Option.some.inj hj).symm
    have ig : L.idxOf g = i := by rw [eg]; exact hnd.idxOf_getElem i hil
    have ip : L.idxOf p = j := by rw [ep]; exact hnd.idxOf_getElem j hjl
    apply exTab_cell _ _ hil hjl
    · have hmem : ∀ f ∈ frags, ∀ x, x ∈ cellKeys f (passMask [t] hm) i j ↔
          ∃ r ∈ f, passMask [t] hm r = true ∧ (r.datum, r.gt, r.pd) = x ∧ x.2 = ((i : Int), (j : Int)) := by
        intro f _ x
        simp only [cellKeys, unique, List.mem_filter, List.mem_dedup, List.mem_map, decide_eq_true_eq]
        constructor
        · rintro ⟨⟨r, ⟨h1, h2⟩, h3⟩, h4⟩; exact ⟨r, h1, h2, h3, h4⟩
        · rintro ⟨r, h1, h2, h3, h4⟩; exact ⟨⟨r, ⟨h1, h2⟩, h3⟩, h4⟩
      have hrow : ∀ f ∈ frags, ∀ r ∈ f, passMask [t] hm r = true → (r.gt, r.pd) = ((i : Int), (j : Int)) →
          ∃ k c i', cs[k]? = some c ∧ D k = true ∧ r.datum = (k : Nat) ∧ c.gt = g ∧ c.preds[i']? = some p ∧
            c.scores[i']? = some r.score ∧ Shown t hm c i' := by
        intro f hfm r hr hp he
        obtain ⟨k, c, i', p', s, hk, h1, h2, rfl⟩ := mem_reach.1 ((hpart f hfm).sub r hr)
        have hc := hcov c (List.mem_of_getElem? hk)
        rw [pass_shown hc.scores_ne h2] at hp
        simp only [rowOf, Prod.mk.injEq, Int.natCast_inj] at he
        rw [← ig, ← ip] at he
        have e1 : c.gt = g := (List.idxOf_inj hc.gt).1 he.1
        have e2 : p' = p := (List.idxOf_inj (hc.preds p' (List.mem_of_getElem? h1))).1 he.2
        subst e2
        exact ⟨k, c, i', hk, by simpa [rowOf] using hkept f hfm _ hr, rfl, e1, h1, h2, hp⟩
      have hperm : (frags.flatMap (fun f => (cellKeys f (passMask [t] hm) i j).map Prod.fst)).Perm
          (datumsKept cs D (fun c => c.gt = g ∧ ∃ i, c.preds[i]? = some p ∧ Shown t hm c i)) := by
        rw [List.perm_ext_iff_of_nodup _ (nodup_datumsKept _ _ _)]
        · intro d
          rw [mem_datumsKept]
          simp only [List.mem_flatMap, List.mem_map]
          constructor
          · rintro ⟨f, hfm, x, hx, rfl⟩
            obtain ⟨r, hr, h1, h2, h3⟩ := (hmem f hfm x).1 hx
            obtain ⟨k, c, i', g1, gD, g2, g3, g4, g5, g6⟩ := hrow f hfm r hr h1 (by rw [← h3, ← h2])
            exact ⟨k, c, g1, gD, ⟨g3, i', g4, g6⟩, by rw [← h2]; exact g2⟩
          · rintro ⟨k, c, hk, hD, ⟨h1, i', h2, h3⟩, rfl⟩
            have hc := hcov c (List.mem_of_getElem? hk)
            obtain ⟨_, s, _, hs⟩ := shown_score hc h3
            have hr := hf.perm.symm.subset (List.mem_filter.2 ⟨mem_reach.2 ⟨k, c, i', p, s, hk, h2, hs, rfl⟩, by simpa [rowOf] using hD⟩)
            obtain ⟨f, hfm, hrf⟩ := List.mem_flatten.1 hr
            refine ⟨f, hfm, (_, _), (hmem f hfm _).2 ⟨_, hrf, (pass_shown hc.scores_ne hs).2 h3, rfl, ?_⟩, rfl⟩
            simp only [rowOf, h1, ig, ip]
        · apply nodup_keys hf _ ((i : Int), (j : Int))
          · intro f _; exact (List.nodup_dedup _).filter _
          · intro f hfm x hx
            obtain ⟨r, hr, h1, h2, h3⟩ := (hmem f hfm x).1 hx
            exact ⟨h3, r, hr, by rw [← h2]⟩
      have huid : ((frags.flatMap (fun f => (cellKeys f (passMask [t] hm) i j).map
            (fun x => (uidAt cs x.1, scoreFor f (passMask [t] hm) x)))).map Prod.fst).Perm
          (((keptList cs D).filter (fun c => decide (c.gt = g ∧ ∃ i, c.preds[i]? = some p ∧ Shown t hm c i))).map
            Classif.uid) := by
        have := hperm.map (uidAt cs)
        rw [uids_datumsKept] at this
        rw [List.map_flatMap] at this ⊢
        simp only [List.map_map] at this ⊢
        refine List.Perm.trans this (List.Perm.of_eq (congrArg _ (List.filter_congr ?_)))
        intro c _
        exact decide_eq_decide.2 Iff.rfl
      refine ⟨?_, huid, ?_⟩
      · have := huid.length_eq
        rw [List.length_map, List.length_map, ← List.countP_eq_length_filter] at this
        rw [this]
        rfl
      · intro y hy
        simp only [List.mem_flatMap, List.mem_map] at hy
        obtain ⟨f, hfm, x, hx, rfl⟩ := hy
        obtain ⟨r, hr, h1, h2, h3⟩ := (hmem f hfm x).1 hx
        have : ∃ r', (f.filter (passMask [t] hm)).find? (fun r => decide ((r.datum, r.gt, r.pd) = x)) = some r' := by
          cases hfnd : (f.filter (passMask [t] hm)).find? (fun r => decide ((r.datum, r.gt, r.pd) = x)) with
          | none =>
            rw [List.find?_eq_none] at hfnd
            exact absurd (hfnd r (by simp [hr, h1])) (by simp [h2])
          | some r' => exact ⟨r', rfl⟩
        obtain ⟨r', hr'⟩ := this
        have q1 := List.find?_some hr'
        have q2 := List.mem_filter.1 (List.mem_of_find?_eq_some hr')
        simp only [decide_eq_true_eq] at q1
        obtain ⟨k, c, i', g1, gD, g2, g3, g4, g5, g6⟩ := hrow f hfm r' q2.1 q2.2 (by rw [← h3, ← q1])
        refine ⟨c, mem_keptList g1 gD, ?_, g3, i', g4, ?_, g6⟩
        · have : x.1 = r'.datum := by rw [← q1]
          simp [this, g2, uidAt, g1]
        · simp only [scoreFor, hr', Option.map_some, Option.getD_some]
          exact g5
  · intro i g hi
    have hil := (List.getElem?_eq_some_iff.1 hi).1
    have eg : g = L[i] := by rw [List.getElem?_eq_getElem hil] at hi; exact (Option.some.inj hi).symm
    have ig : L.idxOf g = i := by rw [eg]; exact hnd.idxOf_getElem i hil
    apply exTab_unm _ _ hil
    · have hmem : ∀ f ∈ frags, ∀ x, x ∈ missKeys f (masksOf f (passMask [t] hm)).unmatched i ↔
          ∃ r ∈ f, (masksOf f (passMask [t] hm)).unmatched r = true ∧ (r.datum, r.gt) = x ∧ x.2 = (i : Int) := by
        intro f _ x
        simp only [missKeys, unique, List.mem_filter, List.mem_dedup, List.mem_map, decide_eq_true_eq]
        constructor
        · rintro ⟨⟨r, ⟨h1, h2⟩, h3⟩, h4⟩; exact ⟨r, h1, h2, h3, h4⟩
        · rintro ⟨r, h1, h2, h3, h4⟩; exact ⟨⟨r, ⟨h1, h2⟩, h3⟩, h4⟩
      have hperm : (frags.flatMap (fun f => (missKeys f (masksOf f (passMask [t] hm)).unmatched i).map
            Prod.fst)).Perm (datumsKept cs D (fun c => c.gt = g ∧ ∀ i, ¬ Shown t hm c i)) := by
        rw [List.perm_ext_iff_of_nodup _ (nodup_datumsKept _ _ _)]
        · intro d
          rw [mem_datumsKept]
          simp only [List.mem_flatMap, List.mem_map]
          constructor
          · rintro ⟨f, hfm, x, hx, rfl⟩
            obtain ⟨r, hr, h1, h2, h3⟩ := (hmem f hfm x).1 hx
            obtain ⟨k, c, i', p', s, hk, q1, q2, rfl⟩ := mem_reach.1 ((hpart f hfm).sub r hr)
            rw [unmatched_part hcov (hpart f hfm) hk hr] at h1
            have hc := hcov c (List.mem_of_getElem? hk)
            refine ⟨k, c, hk, by simpa [rowOf] using hkept f hfm _ hr, ⟨?_, h1⟩, by rw [← h2]; rfl⟩
            rw [← h2, ← ig] at h3
            simp only [rowOf, Int.natCast_inj] at h3
            exact (List.idxOf_inj hc.gt).1 h3
          · rintro ⟨k, c, hk, hD, ⟨h1, h2⟩, rfl⟩
            have hc := hcov c (List.mem_of_getElem? hk)
            obtain ⟨r, hr⟩ := exists_row hc k
            obtain ⟨i', p', s, q1, q2, rfl⟩ := mem_rowsOf.1 hr
            have hr := hf.perm.symm.subset (List.mem_filter.2 ⟨mem_reach.2 ⟨k, c, i', p', s, hk, q1, q2, rfl⟩, by simpa [rowOf] using hD⟩)
            obtain ⟨f, hfm, hrf⟩ := List.mem_flatten.1 hr
            refine ⟨f, hfm, (_, _), (hmem f hfm _).2 ⟨_, hrf, (unmatched_part hcov (hpart f hfm) hk hrf).2 h2, rfl, ?_⟩, rfl⟩
            simp only [rowOf, h1, ig]
        · apply nodup_keys hf _ (i : Int)
          · intro f _; exact (List.nodup_dedup _).filter _
          · intro f hfm x hx
            obtain ⟨r, hr, h1, h2, h3⟩ := (hmem f hfm x).1 hx
            exact ⟨h3, r, hr, by rw [← h2]⟩
      have huid : (frags.flatMap (fun f => (missKeys f (masksOf f (passMask [t] hm)).unmatched i).map
            (fun x => uidAt cs x.1))).Perm
          (((keptList cs D).filter (fun c => decide (c.gt = g ∧ ∀ i, ¬ Shown t hm c i))).map Classif.uid) := by
        have := hperm.map (uidAt cs)
        rw [uids_datumsKept] at this
        rw [List.map_flatMap] at this
        simp only [List.map_map] at this
        refine List.Perm.trans this (List.Perm.of_eq (congrArg _ (List.filter_congr ?_)))
        intro c _
        exact decide_eq_decide.2 Iff.rfl
      refine ⟨?_, huid⟩
      have := huid.length_eq
      rw [List.length_map, ← List.countP_eq_length_filter] at this
      rw [this]
      rfl

open Classical in
/-- **C64 (confusion matrices with examples and a filter on datums).** As `C64_matrix_with_examples`, for the call with `datums=e`: the matrix
and its examples are those of the classifications whose datum satisfies `e`, by the names of all labels. -/
theorem C64_datums_matrix_with_examples (calls : List (List Classif)) (hv : ∀ c ∈ calls.flatten, c.valid = true) {frags : List (List Row)}
    (hf : FragmentsOf frags (Loader.init.addAll calls).rows.flatten) {ts : List Rat} (hts : ts ≠ []) (hm : Bool)
    {e : Row → Bool} {D : Nat → Bool} (he : ∀ r, e r = D r.datum.toNat) :
    let L := (Loader.init.addAll calls).labels
    let cs := keptOf calls D
    ∃ R, reportExCM (frags.map (readTable (some e))) L ts hm = some R ∧ R.length = ts.length ∧
      ∀ (k : Nat) (t m : Rat), ts[k]? = some t → m ∈ ts.take (k + 1) → (∀ x ∈ ts.take (k + 1), x ≤ m) →
        ∃ M, R[k]? = some M ∧ M.type = "ConfusionMatrixWithExamples" ∧ M.threshold = t ∧ M.hardmax = hm ∧
          (∀ g ∈ L, ∀ p ∈ L, ∃ row cell, M.cells.lookup g = some row ∧ row.lookup p = some cell ∧ cell.count = specCell cs m hm g p ∧
            (cell.examples.map Prod.fst).Perm
              ((cs.filter (fun c => decide (c.gt = g ∧ ∃ i, c.preds[i]? = some p ∧ Shown m hm c i))).map Classif.uid) ∧
            ∀ x ∈ cell.examples, ∃ c ∈ cs, c.uid = x.1 ∧ c.gt = g ∧ ∃ i, c.preds[i]? = some p ∧ c.scores[i]? = some x.2 ∧ Shown m hm c i) ∧
          ∀ g ∈ L, ∃ cell, M.unmatched.lookup g = some cell ∧ cell.count = specMissed cs m hm g ∧
            cell.examples.Perm ((cs.filter (fun c => decide (c.gt = g ∧ ∀ i, ¬ Shown m hm c i))).map Classif.uid) := by
  intro L cs
  have hnd : L.Nodup := (linv_reach calls).nodup
  have hin := inRange_reach calls
  have hcov := covers_reach calls hv
  rw [rows_reach calls] at hf hin
  have hread : frags.map (readTable (some e)) = frags.map (List.filter (fun r => D r.datum.toNat)) := by
    apply List.map_congr_left
    intro f _
    rw [readTable]
    exact List.filter_congr (fun r _ => he r)
  have hf' : FragmentsOf (frags.map (readTable (some e)))
      (((history calls).zipIdx.map (fun x => rowsOf L x.2 x.1)).flatten.filter (fun r => D r.datum.toNat)) := by
    rw [hread]
    refine ⟨?_, ?_⟩
    · rw [← List.filter_flatten]
      exact hf.perm.filter _
    · rw [List.pairwise_map]
      exact hf.aligned.imp (fun h x hx y hy => h x (List.mem_of_mem_filter hx) y (List.mem_of_mem_filter hy))
  have hpart := part_kept hf'
  obtain ⟨Ms, e1, e2⟩ := evalExCM_ok (n := L.length) (uid := uidAt (history calls)) hts hm (frags.map (readTable (some e)))
    (fun f hfm r hr => hin r ((hpart f hfm).sub r hr)) (fun f hfm r hr => uidOf_part (hpart f hfm) hr)
  refine ⟨_, by unfold reportExCM; rw [e1]; rfl, by simp [e2], ?_⟩
  intro k t m hk m1 m2
  have hkl : k < ts.length := (List.getElem?_eq_some_iff.1 hk).1
  obtain ⟨M, g1, g2⟩ := C18_excm_running_max (frags.map (readTable (some e))) ts hm L.length k Ms e1 m hkl m1 m2
  obtain ⟨M', g3, g4, g5⟩ := excm_kept hnd hcov hin D _ hf' m hm
  rw [g2] at g3
  simp only [Option.some.injEq, List.cons.injEq, and_true] at g3
  subst g3
  refine ⟨M.named L t hm, ?_, rfl, rfl, rfl, ?_, ?_⟩
  · rw [List.getElem?_map, List.getElem?_zip_eq_some (z := (M, t)) |>.2 ⟨g1, hk⟩]
    rfl
  · intro g hg p hp
    obtain ⟨row, cell, r1, r2, r3⟩ := g4 (L.idxOf g) (L.idxOf p) g p (List.getElem?_idxOf hg) (List.getElem?_idxOf hp)
    refine ⟨L.zip row, cell, ?_, lookup_zip hnd (List.getElem?_idxOf hp) r2, r3⟩
    exact lookup_zip hnd (List.getElem?_idxOf hg) (by rw [List.getElem?_map, r1]; rfl)
  · intro g hg
    obtain ⟨cell, r1, r2⟩ := g5 (L.idxOf g) g (List.getElem?_idxOf hg)
    exact ⟨cell, lookup_zip hnd (List.getElem?_idxOf hg) r1, r2⟩

/-- The sample without its first classification. -/
example : (∀ c ∈ sample.flatten, c.valid = true) ∧
    FragmentsOf [(Loader.init.addAll sample).rows.flatten] (Loader.init.addAll sample).rows.flatten ∧
    (keptOf sample (fun k => decide (k ≠ 0))).map Classif.uid = ["d1", "d2"] ∧
    ((reportExCM [readTable (some (fun r => decide (r.datum.toNat ≠ 0))) (Loader.init.addAll sample).rows.flatten] ["cat", "dog", "bird"]
      [17/20] true).map (fun R => R.map (fun M => M.unmatched))) = some [[("cat", ⟨0, []⟩), ("dog", ⟨1, ["d2"]⟩), ("bird", ⟨0, []⟩)]] := by
  refine ⟨by decide +kernel, ⟨by rw [List.flatten_singleton], List.pairwise_singleton _ _⟩, by decide +kernel, by decide +kernel⟩

end Verif.Classification
