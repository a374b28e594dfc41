import Verif.Classification.ExProps

/-! # C52, C53: examples per datum; counts against the confusion matrix -/

namespace Verif.Classification

theorem mem_uniqueAsc {l : List Int} {k : Int} : k ∈ uniqueAsc l ↔ k ∈ l := by
  unfold uniqueAsc
  rw [List.mem_insertionSort, List.mem_dedup]

theorem uniqueAsc_nodup (l : List Int) : (uniqueAsc l).Nodup :=
  (List.perm_insertionSort _ _).nodup_iff.2 (List.nodup_dedup l)

theorem uniqueAsc_strict (l : List Int) : (uniqueAsc l).Pairwise (· < ·) := by
  have h1 : (uniqueAsc l).Pairwise (· ≤ ·) := List.pairwise_insertionSort _ _
  have h2 : (uniqueAsc l).Pairwise (· ≠ ·) := uniqueAsc_nodup l
  exact (h1.and h2).imp (fun h => lt_of_le_of_ne h.1 h.2)

/-! ## C52 -/

/-- Label `p` is predicted for `c` at threshold `t`. -/
def ShownLabel (t : Rat) (hm : Bool) (c : Classif) (p : String) : Prop :=
  ∃ i, c.preds[i]? = some p ∧ Shown t hm c i

open Classical in
/-- What the entry of datum `c` must say. -/
structure Entry (t : Rat) (hm : Bool) (c : Classif) (e : Example) : Prop where
  uid : e.uid = c.uid
  tp : e.tp = if ShownLabel t hm c c.gt then [c.gt] else []
  fn : e.fn = if ShownLabel t hm c c.gt then [] else [c.gt]
  fpOnce : e.fp.Nodup
  fp : ∀ l, l ∈ e.fp ↔ l ≠ c.gt ∧ ShownLabel t hm c l

theorem unique_const {α : Type} [DecidableEq α] {l : List α} {a : α} (h : ∀ x ∈ l, x = a) :
    unique l = if l = [] then [] else [a] := by
  split
  · rename_i e; subst e; rfl
  · rename_i e
    have : l = List.replicate l.length a := List.eq_replicate_iff.2 ⟨rfl, h⟩
    rw [this]
    unfold unique
    exact List.replicate_dedup (by simpa using e)

theorem labelOf_idx {L : List String} {v : String} (h : v ∈ L) :
    labelOf L ((L.idxOf v : Nat) : Int) = some v := by
  unfold labelOf
  rw [if_pos (by omega)]
  simpa using List.getElem?_idxOf h

theorem labelMatch_row {L : List String} {k i : Nat} {c : Classif} {p : String} {s : Rat}
    (hL : L.length ≤ 100000) (hg : c.gt ∈ L) (hp : p ∈ L) :
    labelMatch (rowOf L k c i p s) = decide (c.gt = p) := by
  unfold labelMatch
  have h1 : L.idxOf p < L.length := idxOf_lt' hp
  simp only [rowOf]
  rw [isclose_ids (by omega) (by omega), decide_eq_decide, Int.natCast_inj]
  exact List.idxOf_inj hg

theorem exampleOf_eq {L : List String} {cs : List Classif} (hL : L.length ≤ 100000)
    (hc : ∀ c ∈ cs, Covers L c) {f : List Row} (h : Part L cs f) (t : Rat) (hm : Bool) {k : Nat}
    {c : Classif} (hk : cs[k]? = some c) {r0 : Row} (hr0 : r0 ∈ f) (hd : r0.datum = (k : Nat)) :
    ∃ e, exampleOf f L (k : Nat) (masksOf f (passMask [t] hm)) = some e ∧ Entry t hm c e := by
  classical
  have hcov := hc c (List.mem_of_getElem? hk)
  set K := masksOf f (passMask [t] hm) with hK
  let here := f.filter (fun r : Row => decide (r.datum = ((k : Nat) : Int)))
  have hhere : ∀ r, r ∈ here ↔ ∃ i p s, c.preds[i]? = some p ∧ c.scores[i]? = some s ∧
      r = rowOf L k c i p s := by
    intro r
    simp only [here, List.mem_filter, decide_eq_true_eq]
    constructor
    · rintro ⟨h1, h2⟩
      obtain ⟨k', c', i, p, s, hk', g1, g2, rfl⟩ := mem_reach.1 (h.sub r h1)
      have : k' = k := by simpa [rowOf] using h2
      subst this
      rw [hk] at hk'
      have := Option.some.inj hk'
      subst this
      exact ⟨i, p, s, g1, g2, rfl⟩
    · rintro ⟨i, p, s, g1, g2, rfl⟩
      exact ⟨h.full r0 hr0 _ (mem_reach.2 ⟨k, c, i, p, s, hk, g1, g2, rfl⟩) (by rw [hd]; rfl), rfl⟩
  have hmemf : ∀ r ∈ here, r ∈ f := fun r hr => (List.mem_filter.1 hr).1
  -- true positives
  have htp : ∀ r ∈ here, K.tp r = true ↔ (r.pdLabel = c.gt ∧ passMask [t] hm r = true) := by
    intro r hr
    obtain ⟨i, p, s, g1, g2, rfl⟩ := (hhere r).1 hr
    simp only [hK, masksOf, Bool.and_eq_true,
      labelMatch_row hL hcov.gt (hcov.preds p (List.mem_of_getElem? g1)), decide_eq_true_eq]
    simp only [rowOf]
    constructor
    · rintro ⟨h1, h2⟩; exact ⟨h1.symm, h2⟩
    · rintro ⟨h1, h2⟩; exact ⟨h1.symm, h2⟩
  have hmis : ∀ r ∈ here, K.misclf r = true ↔ (r.pdLabel ≠ c.gt ∧ passMask [t] hm r = true) := by
    intro r hr
    obtain ⟨i, p, s, g1, g2, rfl⟩ := (hhere r).1 hr
    simp only [hK, masksOf, Bool.and_eq_true, Bool.not_eq_true',
      labelMatch_row hL hcov.gt (hcov.preds p (List.mem_of_getElem? g1)), decide_eq_false_iff_not]
    simp only [rowOf]
    constructor
    · rintro ⟨h1, h2⟩; exact ⟨fun e => h1 e.symm, h2⟩
    · rintro ⟨h1, h2⟩; exact ⟨fun e => h1 e.symm, h2⟩
  have hshow : ∀ p, (∃ r ∈ here, r.pdLabel = p ∧ passMask [t] hm r = true) ↔ ShownLabel t hm c p := by
    intro p
    constructor
    · rintro ⟨r, hr, h1, h2⟩
      obtain ⟨i, p', s, g1, g2, rfl⟩ := (hhere r).1 hr
      simp only [rowOf] at h1
      subst h1
      exact ⟨i, g1, (pass_shown hcov.scores_ne g2).1 h2⟩
    · rintro ⟨i, g1, g2⟩
      obtain ⟨_, s, _, hs⟩ := shown_score hcov g2
      exact ⟨_, (hhere _).2 ⟨i, p, s, g1, hs, rfl⟩, rfl, (pass_shown hcov.scores_ne hs).2 g2⟩
  have etp : unique ((here.filter K.tp).map (fun r => (r.datum, r.gt, r.pd)))
      = if ShownLabel t hm c c.gt then [((k : Int), ((L.idxOf c.gt : Nat) : Int), ((L.idxOf c.gt : Nat) : Int))]
        else [] := by
    rw [unique_const (a := ((k : Int), ((L.idxOf c.gt : Nat) : Int), ((L.idxOf c.gt : Nat) : Int)))]
    · by_cases hs : ShownLabel t hm c c.gt
      · rw [if_pos hs, if_neg]
        obtain ⟨r, hr, h1, h2⟩ := (hshow c.gt).2 hs
        intro hcon
        have : r ∈ here.filter K.tp := List.mem_filter.2 ⟨hr, (htp r hr).2 ⟨h1, h2⟩⟩
        rw [List.map_eq_nil_iff] at hcon
        rw [hcon] at this
        exact absurd this (by simp)
      · rw [if_neg hs, if_pos]
        rw [List.map_eq_nil_iff, List.filter_eq_nil_iff]
        intro r hr hcon
        exact hs ((hshow c.gt).1 ⟨r, hr, (htp r hr).1 hcon⟩)
    · intro x hx
      simp only [List.mem_map, List.mem_filter] at hx
      obtain ⟨r, ⟨h1, h2⟩, rfl⟩ := hx
      have := ((htp r h1).1 h2).1
      obtain ⟨i, p, s, g1, g2, rfl⟩ := (hhere r).1 h1
      simp only [rowOf] at this ⊢
      rw [this]
  have efn : unique ((here.filter (fun r => K.misclf r || K.unmatched r)).map (fun r => (r.datum, r.gt)))
      = if (∃ r ∈ here, (K.misclf r || K.unmatched r) = true) then [((k : Int), ((L.idxOf c.gt : Nat) : Int))]
        else [] := by
    rw [unique_const (a := ((k : Int), ((L.idxOf c.gt : Nat) : Int)))]
    · by_cases hs : ∃ r ∈ here, (K.misclf r || K.unmatched r) = true
      · rw [if_pos hs, if_neg]
        obtain ⟨r, hr, h1⟩ := hs
        intro hcon
        rw [List.map_eq_nil_iff, List.filter_eq_nil_iff] at hcon
        exact hcon r hr h1
      · rw [if_neg hs, if_pos]
        rw [List.map_eq_nil_iff, List.filter_eq_nil_iff]
        intro r hr hcon
        exact hs ⟨r, hr, hcon⟩
    · intro x hx
      simp only [List.mem_map, List.mem_filter] at hx
      obtain ⟨r, ⟨h1, h2⟩, rfl⟩ := hx
      obtain ⟨i, p, s, g1, g2, rfl⟩ := (hhere r).1 h1
      rfl
  let fpk := unique ((here.filter K.misclf).map (fun r => (r.datum, r.pd)))
  let name : Int × Int → String := fun x => (labelOf L x.2).getD ""
  have hfpk : ∀ x ∈ fpk, ∃ r ∈ here, r.pdLabel ≠ c.gt ∧ passMask [t] hm r = true ∧
      x = ((k : Int), ((L.idxOf r.pdLabel : Nat) : Int)) ∧ r.pdLabel ∈ L := by
    intro x hx
    simp only [fpk, unique, List.mem_dedup, List.mem_map, List.mem_filter] at hx
    obtain ⟨r, ⟨h1, h2⟩, rfl⟩ := hx
    have hh := (hmis r h1).1 h2
    refine ⟨r, h1, hh.1, hh.2, ?_⟩
    obtain ⟨i, p, s, g1, g2, rfl⟩ := (hhere r).1 h1
    exact ⟨rfl, hcov.preds p (List.mem_of_getElem? g1)⟩
  have efp : fpk.mapM (fun x => labelOf L x.2) = some (fpk.map name) := by
    apply mapM_some
    intro x hx
    obtain ⟨r, _, _, _, rfl, hp⟩ := hfpk x hx
    simp only [name, labelOf_idx hp, Option.getD_some]
  have huid : uidOf f (k : Nat) = some c.uid := by
    have := uidOf_part h hr0
    rw [hd] at this
    rw [this]
    simp [uidAt, hk]
  have hfp_mem : ∀ l, l ∈ fpk.map name ↔ l ≠ c.gt ∧ ShownLabel t hm c l := by
    intro l
    rw [List.mem_map]
    constructor
    · rintro ⟨x, hx, rfl⟩
      obtain ⟨r, hr, h1, h2, rfl, hp⟩ := hfpk x hx
      simp only [name, labelOf_idx hp, Option.getD_some]
      exact ⟨h1, (hshow _).1 ⟨r, hr, rfl, h2⟩⟩
    · rintro ⟨h1, h2⟩
      obtain ⟨r, hr, h3, h4⟩ := (hshow l).2 h2
      refine ⟨(r.datum, r.pd), ?_, ?_⟩
      · simp only [fpk, unique, List.mem_dedup, List.mem_map, List.mem_filter]
        exact ⟨r, ⟨hr, (hmis r hr).2 ⟨by rw [h3]; exact h1, h4⟩⟩, rfl⟩
      · obtain ⟨i, p, s, g1, g2, rfl⟩ := (hhere r).1 hr
        simp only [rowOf] at h3 ⊢
        subst h3
        simp only [name, labelOf_idx (hcov.preds p (List.mem_of_getElem? g1)), Option.getD_some]
  have hfp_nd : (fpk.map name).Nodup := by
    apply (List.nodup_dedup _).map_on
    intro x hx y hy e
    obtain ⟨r, _, _, _, rfl, hp⟩ := hfpk x hx
    obtain ⟨r', _, _, _, rfl, hp'⟩ := hfpk y hy
    simp only [name, labelOf_idx hp, labelOf_idx hp', Option.getD_some] at e
    rw [e]
  have hfne : ¬ ShownLabel t hm c c.gt → ∃ r ∈ here, (K.misclf r || K.unmatched r) = true := by
    intro hns
    by_cases hany : ∃ i, Shown t hm c i
    · obtain ⟨i, hi⟩ := hany
      obtain ⟨p, s, g1, g2⟩ := shown_score hcov hi
      refine ⟨_, (hhere _).2 ⟨i, p, s, g1, g2, rfl⟩, ?_⟩
      rw [Bool.or_eq_true]
      left
      rw [hmis _ ((hhere _).2 ⟨i, p, s, g1, g2, rfl⟩)]
      refine ⟨?_, (pass_shown hcov.scores_ne g2).2 hi⟩
      intro e
      simp only [rowOf] at e
      subst e
      exact hns ⟨i, g1, hi⟩
    · obtain ⟨r, hr⟩ := exists_row hcov k
      obtain ⟨i, p, s, g1, g2, rfl⟩ := mem_rowsOf.1 hr
      have hh := (hhere _).2 ⟨i, p, s, g1, g2, rfl⟩
      refine ⟨_, hh, ?_⟩
      rw [Bool.or_eq_true]
      right
      exact (unmatched_part hc h hk (hmemf _ hh)).2 (fun j hj => hany ⟨j, hj⟩)
  unfold exampleOf
  rw [huid]
  simp only [Option.bind_eq_bind, Option.bind_some, Option.pure_def]
  change ∃ e, ((unique ((here.filter K.tp).map (fun r => (r.datum, r.gt, r.pd)))).mapM
    (fun x => labelOf L x.2.1)).bind (fun tp => (fpk.mapM (fun x => labelOf L x.2)).bind (fun fp =>
      ((unique ((here.filter (fun r => K.misclf r || K.unmatched r)).map
        (fun r => (r.datum, r.gt)))).mapM (fun x => labelOf L x.2)).bind (fun fn => some
        ({ uid := c.uid, tp := tp, fn := fn.filter (fun l => !tp.contains l),
           fp := fp.filter (fun l => !tp.contains l) } : Example)))) = some e ∧ _
  rw [etp, efp, efn]
  by_cases hs : ShownLabel t hm c c.gt
  · have e1 : ([((k : Int), ((L.idxOf c.gt : Nat) : Int), ((L.idxOf c.gt : Nat) : Int))]).mapM
        (fun x => labelOf L x.2.1) = some [c.gt] := by
      rw [List.mapM_cons, List.mapM_nil, labelOf_idx hcov.gt]; rfl
    have e2 : ∃ fn, (if (∃ r ∈ here, (K.misclf r || K.unmatched r) = true) then
        [((k : Int), ((L.idxOf c.gt : Nat) : Int))] else []).mapM (fun x => labelOf L x.2) = some fn ∧
        ∀ l ∈ fn, l = c.gt := by
      split
      · exact ⟨[c.gt], by rw [List.mapM_cons, List.mapM_nil, labelOf_idx hcov.gt]; rfl, by simp⟩
      · exact ⟨[], rfl, by simp⟩
    obtain ⟨fn, e3, e4⟩ := e2
    rw [if_pos hs, e1, e3]
    simp only [Option.bind_some, Option.some.injEq, exists_eq_left']
    have efilter : (fpk.map name).filter (fun l => !([c.gt] : List String).contains l) = fpk.map name := by
      rw [List.filter_eq_self]
      intro l hl
      have := ((hfp_mem l).1 hl).1
      simpa using this
    refine ⟨rfl, by rw [if_pos hs], ?_, by rw [efilter]; exact hfp_nd, by rw [efilter]; exact hfp_mem⟩
    rw [if_pos hs, List.filter_eq_nil_iff]
    intro l hl
    rw [e4 l hl]
    simp
  · rw [if_neg hs, if_pos (hfne hs)]
    have e1 : ([((k : Int), ((L.idxOf c.gt : Nat) : Int))]).mapM (fun x => labelOf L x.2) = some [c.gt] := by
      rw [List.mapM_cons, List.mapM_nil, labelOf_idx hcov.gt]; rfl
    rw [e1, List.mapM_nil]
    simp only [Option.pure_def, Option.bind_some, Option.some.injEq, exists_eq_left']
    have efilter : (fpk.map name).filter (fun l => !([] : List String).contains l) = fpk.map name := by
      rw [List.filter_eq_self]
      intro l _
      simp
    refine ⟨rfl, by rw [if_neg hs], ?_, by rw [efilter]; exact hfp_nd, by rw [efilter]; exact hfp_mem⟩
    rw [if_neg hs]
    simp

/-- The entries of one datum for a list of thresholds: one entry per threshold, that of the `i`-th being the entry at the largest of the
first `i + 1` thresholds (C18), which is the threshold itself if the list is ascending. -/
def Entries (ts : List Rat) (hm : Bool) (c : Classif) (es : List Example) : Prop :=
  es.length = ts.length ∧ ∀ (i : Nat) (m : Rat), i < ts.length → m ∈ ts.take (i + 1) → (∀ x ∈ ts.take (i + 1), x ≤ m) →
    ∃ e, es[i]? = some e ∧ Entry m hm c e

/-- The datums of the tables: per table, those that it holds. -/
def datumsOf (frags : List (List Row)) : List Nat := (frags.flatMap (fun f => uniqueAsc (f.map Row.datum))).map Int.toNat

theorem datumsOf_cons (f : List Row) (fs : List (List Row)) : datumsOf (f :: fs) = datumsOf [f] ++ datumsOf fs := by
  simp [datumsOf]

/-- Tables of whole datums: the entries are those of their datums, in the order of the tables. -/
theorem examples_parts {L : List String} {cs : List Classif} (hL : L.length ≤ 100000) (hcov : ∀ c ∈ cs, Covers L c)
    {frags : List (List Row)} (hpart : ∀ f ∈ frags, Part L cs f) {ts : List Rat} (hts : ts ≠ []) (hm : Bool) :
    ∃ (R : List (List Example)), evalExamples frags L ts hm = some R ∧ R.length = (datumsOf frags).length ∧
      ∀ (j k : Nat), (datumsOf frags)[j]? = some k → ∃ c es, cs[k]? = some c ∧ R[j]? = some es ∧ Entries ts hm c es := by
  -- one table
  have one : ∀ f ∈ frags, ∃ (R : List (List Example)),
      examplesOf f L ts hm = some R ∧ R.length = (datumsOf [f]).length ∧
      ∀ (j k : Nat), (datumsOf [f])[j]? = some k → ∃ c es, cs[k]? = some c ∧ R[j]? = some es ∧ Entries ts hm c es := by
    intro f hfm
    have hp := hpart f hfm
    have hrow : ∀ d ∈ uniqueAsc (f.map Row.datum), ∃ k c es, cs[k]? = some c ∧ d = (k : Nat) ∧
        (pairMasks f ts hm).mapM (exampleOf f L d) = some es ∧ Entries ts hm c es := by
      intro d hd
      rw [mem_uniqueAsc, List.mem_map] at hd
      obtain ⟨r, hr, rfl⟩ := hd
      obtain ⟨k, c, i, p, s, hk, g1, g2, e⟩ := mem_reach.1 (hp.sub r hr)
      have hd : r.datum = (k : Nat) := by rw [e]; rfl
      have hat : ∀ T ∈ prefixes ts, exampleOf f L r.datum (masksOf f (passMask T hm))
          = some ((exampleOf f L r.datum (masksOf f (passMask T hm))).getD ⟨"", [], [], []⟩) := by
        intro T hT
        obtain ⟨q, hq, rfl⟩ := List.mem_map.1 hT
        have hne : ts.take (q + 1) ≠ [] := by
          rw [Ne, List.take_eq_nil_iff]
          rintro (h0 | h0)
          · omega
          · exact hts h0
        rw [passMask_max (List.max_mem hne) (fun x hx => List.le_max_of_mem hx) hm]
        obtain ⟨ex, h1, _⟩ := exampleOf_eq hL hcov hp ((ts.take (q + 1)).max hne) hm hk hr hd
        rw [hd, h1]
        rfl
      have hall : (pairMasks f ts hm).mapM (exampleOf f L r.datum)
          = some ((prefixes ts).map (fun T => (exampleOf f L r.datum (masksOf f (passMask T hm))).getD ⟨"", [], [], []⟩)) := by
        rw [pairMasks_eq, List.mapM_map]
        exact mapM_some _ _ _ hat
      refine ⟨k, c, _, hk, hd, hall, by simp [prefixes], ?_⟩
      intro i' m hi' m1 m2
      obtain ⟨ex, h1, h2⟩ := exampleOf_eq hL hcov hp m hm hk hr hd
      refine ⟨ex, ?_, h2⟩
      rw [List.getElem?_map, prefixes_get hi', Option.map_some, passMask_max m1 m2, hd, h1]
      rfl
    have hR : examplesOf f L ts hm = some ((uniqueAsc (f.map Row.datum)).map (fun d =>
        ((pairMasks f ts hm).mapM (exampleOf f L d)).getD [])) := by
      unfold examplesOf
      apply mapM_some
      intro d hd
      obtain ⟨k, c, e, _, _, h3, _⟩ := hrow d hd
      rw [h3]
      rfl
    refine ⟨_, hR, by simp [datumsOf], ?_⟩
    · intro j k hj
      simp only [datumsOf, List.flatMap_cons, List.flatMap_nil, List.append_nil] at hj
      rw [List.getElem?_map, Option.map_eq_some_iff] at hj
      obtain ⟨d, hd, rfl⟩ := hj
      obtain ⟨k', c, e, h1, rfl, h3, h4⟩ := hrow d (List.mem_of_getElem? hd)
      refine ⟨c, e, by simpa using h1, ?_, h4⟩
      rw [List.getElem?_map, hd]
      simp [h3]
  -- all tables
  have all : ∀ (fs : List (List Row)), (∀ f ∈ fs, f ∈ frags) →
      ∃ (R : List (List Example)),
        (∀ acc, fs.foldlM (fun acc f => if f.isEmpty then some acc
          else (examplesOf f L ts hm).map (acc ++ ·)) acc = some (acc ++ R)) ∧ R.length = (datumsOf fs).length ∧
        ∀ (j k : Nat), (datumsOf fs)[j]? = some k → ∃ c es, cs[k]? = some c ∧ R[j]? = some es ∧ Entries ts hm c es := by
    intro fs
    induction fs with
    | nil => intro _; exact ⟨[], by simp, rfl, by simp [datumsOf]⟩
    | cons f fs ih =>
      intro hsub
      obtain ⟨R1, a1, a3, a5⟩ := one f (hsub f (by simp))
      obtain ⟨R2, b1, b3, b5⟩ := ih (fun g hg => hsub g (by simp [hg]))
      rw [datumsOf_cons]
      refine ⟨R1 ++ R2, ?_, by simp [a3, b3], ?_⟩
      · intro acc
        rw [List.foldlM_cons]
        have : (if f.isEmpty then some acc else (examplesOf f L ts hm).map (acc ++ ·)) = some (acc ++ R1) := by
          split
          · rename_i he
            have hfe : f = [] := by simpa using he
            rw [hfe] at a3
            have : R1.length = 0 := by rw [a3]; simp [datumsOf, uniqueAsc]
            rw [List.length_eq_zero_iff.1 this, List.append_nil]
          · rw [a1]; rfl
        rw [this]
        simp only [Option.bind_eq_bind, Option.bind_some]
        rw [b1, List.append_assoc]
      · intro j k hj
        rw [List.getElem?_append] at hj
        split at hj
        · rename_i hlt
          obtain ⟨c, e, q1, q2, q3⟩ := a5 j k hj
          exact ⟨c, e, q1, by rw [List.getElem?_append_left (by omega)]; exact q2, q3⟩
        · rename_i hlt
          obtain ⟨c, e, q1, q2, q3⟩ := b5 _ k hj
          refine ⟨c, e, q1, ?_, q3⟩
          rw [List.getElem?_append_right (by omega), a3]
          exact q2
  obtain ⟨R, c1, c3, c5⟩ := all frags (fun f hf => hf)
  refine ⟨R, ?_, c3, c5⟩
  unfold evalExamples
  rw [if_neg (by simpa using hts), c1]
  simp

/-- The datums of such tables. -/
theorem mem_datumsOf {L : List String} {cs : List Classif} {frags : List (List Row)} (hpart : ∀ f ∈ frags, Part L cs f) {k : Nat} :
    k ∈ datumsOf frags ↔ ∃ f ∈ frags, ∃ r ∈ f, r.datum = (k : Nat) := by
  simp only [datumsOf, List.mem_map, List.mem_flatMap, mem_uniqueAsc]
  constructor
  · rintro ⟨d, ⟨f, hf, r, hr, rfl⟩, rfl⟩
    obtain ⟨k', c, i, p, s, hk, _, _, rfl⟩ := mem_reach.1 ((hpart f hf).sub r hr)
    exact ⟨f, hf, _, hr, by simp [rowOf]⟩
  · rintro ⟨f, hf, r, hr, e⟩
    exact ⟨r.datum, ⟨f, hf, r, hr, rfl⟩, by rw [e]; simp⟩

theorem datumsOf_nodup {L : List String} {cs : List Classif} {frags : List (List Row)} (hpart : ∀ f ∈ frags, Part L cs f)
    (hal : frags.Pairwise (fun a b => ∀ x ∈ a, ∀ y ∈ b, x.datum ≠ y.datum)) : (datumsOf frags).Nodup := by
  unfold datumsOf
  have hnat : ∀ d ∈ frags.flatMap (fun f => uniqueAsc (f.map Row.datum)), ∃ k : Nat, d = (k : Int) := by
    intro d hd
    simp only [List.mem_flatMap, mem_uniqueAsc, List.mem_map] at hd
    obtain ⟨f, hf, r, hr, rfl⟩ := hd
    obtain ⟨k', c, i, p, s, hk, _, _, rfl⟩ := mem_reach.1 ((hpart f hf).sub r hr)
    exact ⟨k', rfl⟩
  apply List.Nodup.map_on
  · intro x hx y hy e
    obtain ⟨k, rfl⟩ := hnat x hx
    obtain ⟨k', rfl⟩ := hnat y hy
    simpa using e
  · rw [List.nodup_flatMap]
    refine ⟨fun f _ => uniqueAsc_nodup _, hal.imp ?_⟩
    intro a b hab d h1 h2
    simp only [mem_uniqueAsc, List.mem_map] at h1 h2
    obtain ⟨x, hx, rfl⟩ := h1
    obtain ⟨y, hy, e⟩ := h2
    exact hab x hx y hy e.symm

/-- **C52.** For every history with at most 100000 labels, datum-aligned tables and list of thresholds: the
examples contain one entry per datum and threshold, and the entry lists the ground truth as true positive if it is
predicted and as false negative otherwise, and exactly the other predicted labels as false
positives. -/
theorem C52_examples (calls : List (List Classif)) (hv : ∀ c ∈ calls.flatten, c.valid = true)
    (hL : (Loader.init.addAll calls).labels.length ≤ 100000)
    (frags : List (List Row)) (hf : FragmentsOf frags (Loader.init.addAll calls).rows.flatten)
    {ts : List Rat} (hts : ts ≠ []) (hm : Bool) :
    ∃ (R : List (List Example)) (ds : List Nat),
      evalExamples frags (Loader.init.addAll calls).labels ts hm = some R ∧
      ds.Perm (List.range (history calls).length) ∧ R.length = ds.length ∧
      ∀ (j k : Nat), ds[j]? = some k → ∃ c es, (history calls)[k]? = some c ∧ R[j]? = some es ∧
        Entries ts hm c es := by
  have hcov := covers_reach calls hv
  rw [rows_reach calls] at hf
  generalize (Loader.init.addAll calls).labels = L at *
  generalize history calls = cs at *
  have hpart := part_of hf
  obtain ⟨R, c1, c3, c5⟩ := examples_parts hL hcov hpart hts hm
  refine ⟨R, datumsOf frags, c1, ?_, c3, c5⟩
  · rw [List.perm_ext_iff_of_nodup (datumsOf_nodup hpart hf.aligned) List.nodup_range]
    intro k
    rw [mem_datumsOf hpart, List.mem_range]
    constructor
    · rintro ⟨f, hfm, r, hr, e⟩
      obtain ⟨k', c, i, p, s, hk, _, _, rfl⟩ := mem_reach.1 ((hpart f hfm).sub r hr)
      have : k' = k := by simpa [rowOf] using e
      subst this
      exact (List.getElem?_eq_some_iff.1 hk).1
    · intro hlt
      have hk := List.getElem?_eq_getElem hlt
      obtain ⟨r, hr⟩ := exists_row (hcov _ (List.getElem_mem hlt)) k
      obtain ⟨i, p, s, g1, g2, rfl⟩ := mem_rowsOf.1 hr
      have := hf.perm.symm.subset (mem_reach.2 ⟨k, _, i, p, s, hk, g1, g2, rfl⟩)
      obtain ⟨f, hfm, hrf⟩ := List.mem_flatten.1 this
      exact ⟨f, hfm, _, hrf, rfl⟩

example : evalExamples [(Loader.init.addAll sample).rows.getD 1 [],
     (Loader.init.addAll sample).rows.getD 2 [] ++ (Loader.init.addAll sample).rows.getD 0 []]
     ["cat", "dog", "bird"] [1/2] false
    = some [[⟨"d1", [], ["dog"], ["cat"]⟩], [⟨"d0", ["cat"], [], ["dog"]⟩], [⟨"d2", [], ["dog"], ["bird"]⟩]] := by
  decide +kernel

end Verif.Classification
