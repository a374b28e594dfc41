import Verif.Classification.PairsLemmas

/-! # C18, C19, C20: thresholds, confusion matrix, label identity -/

namespace Verif.Classification

/-! ## C18 -/

/-- **C18 (counts).** For all tables (reachable or not), thresholds in any order: the counts reported
for a threshold are those of a call that asks for this threshold alone. -/
theorem C18_counts (frags : List (List Row)) (ts : List Rat) (hm : Bool) (n k : Nat) (t : Rat)
    (R : List (List Counts)) (hR : evalCounts frags ts hm n = some R) (hk : ts[k]? = some t) :
    ∃ row, R[k]? = some row ∧ evalCounts frags [t] hm n = some [row] := by
  unfold evalCounts at hR ⊢
  let one : List Row → Option (List Counts) := fun f =>
    if f.isEmpty then some (List.replicate n Counts.zero) else countsAt f hm n t
  obtain ⟨r, h1, h2⟩ := foldlM_component (k := k)
    (s := fun a f => (one f).map (fun b => List.zipWith Counts.add a b)) (by
      intro acc f acc' hS a ha
      cases hc : computeCounts f ts hm n with
      | none => rw [hc] at hS; exact absurd hS (by simp)
      | some b =>
        rw [hc] at hS
        simp only [Option.map_some, Option.some.injEq] at hS
        subst hS
        have hb : ∃ y, b[k]? = some y ∧ one f = some y := by
          unfold computeCounts at hc
          simp only [one]
          split at hc
          · rename_i he
            rw [if_pos he]
            simp only [Option.some.injEq] at hc
            subst hc
            refine ⟨_, ?_, rfl⟩
            rw [List.getElem?_map, hk]; rfl
          · rename_i he
            rw [if_neg he]
            exact (mapM_option hc).2 k t hk
        obtain ⟨y, hy1, hy2⟩ := hb
        refine ⟨_, ?_, by rw [hy2]; rfl⟩
        unfold addAll
        rw [List.getElem?_zipWith, ha, hy1])
    frags _ R (List.replicate n Counts.zero) hR (by rw [List.getElem?_map, hk]; rfl)
  refine ⟨r, h1, ?_⟩
  rw [List.map_cons, List.map_nil, foldlM_single (s := fun a f => (one f).map (fun b => List.zipWith Counts.add a b)),
    h2]
  · rfl
  · intro a f
    simp only [one, computeCounts]
    split
    · rfl
    · rw [List.mapM_cons, List.mapM_nil]
      cases countsAt f hm n t with
      | none => rfl
      | some b => rfl

theorem take_succ_lt {ts : List Rat} {k : Nat} {t : Rat} (hk : ts[k]? = some t) : k < ts.length := by
  by_contra hc
  rw [List.getElem?_eq_none (by omega)] at hk
  exact absurd hk (by simp)

/-- **C18 (confusion matrix, exact).** The matrix reported for the `k`-th threshold is that of a call
with the largest of the first `k + 1` thresholds. -/
theorem C18_cm_running_max (frags : List (List Row)) (ts : List Rat) (hm : Bool) (n k : Nat)
    (R : List CM) (hR : evalCM frags ts hm n = some R) (m : Rat) (hk : k < ts.length)
    (h1 : m ∈ ts.take (k + 1)) (h2 : ∀ x ∈ ts.take (k + 1), x ≤ m) :
    ∃ M, R[k]? = some M ∧ evalCM frags [m] hm n = some [M] := by
  unfold evalCM at hR ⊢
  rw [if_neg (by intro h0; simp at h0; subst h0; simp at hk)] at hR
  rw [if_neg (by simp)]
  have hk' : ts[k]? = some ts[k] := List.getElem?_eq_getElem hk
  obtain ⟨r, g1, g2⟩ := foldlM_component (k := k)
    (s := fun a f => (cmOf f n (masksOf f (passMask [m] hm))).map (fun b => CM.add a b)) (by
      intro acc f acc' hS a ha
      cases hc : (pairMasks f ts hm).mapM (cmOf f n) with
      | none => rw [hc] at hS; exact absurd hS (by simp)
      | some b =>
        rw [hc] at hS
        simp only [Option.map_some, Option.some.injEq] at hS
        subst hS
        obtain ⟨y, hy1, hy2⟩ := (mapM_option hc).2 k (masksOf f (passMask (ts.take (k + 1)) hm)) (by
          rw [pairMasks_eq, List.getElem?_map, prefixes_get hk]; rfl)
        rw [passMask_max h1 h2] at hy2
        refine ⟨_, ?_, by rw [hy2]; rfl⟩
        rw [List.getElem?_zipWith, ha, hy1])
    frags _ R (CM.zero n) hR (by rw [List.getElem?_map, hk']; rfl)
  refine ⟨r, g1, ?_⟩
  rw [List.map_cons, List.map_nil, foldlM_single
    (s := fun a f => (cmOf f n (masksOf f (passMask [m] hm))).map (fun b => CM.add a b)), g2]
  · rfl
  · intro a f
    rw [pairMasks_eq]
    have : (prefixes [m]) = [[m]] := rfl
    rw [this, List.map_cons, List.map_nil, List.mapM_cons, List.mapM_nil]
    cases cmOf f n (masksOf f (passMask [m] hm)) with
    | none => rfl
    | some b => rfl

/-- **C18 (matrix with examples, exact).** -/
theorem C18_excm_running_max (frags : List (List Row)) (ts : List Rat) (hm : Bool) (n k : Nat)
    (R : List ExCM) (hR : evalExCM frags ts hm n = some R) (m : Rat) (hk : k < ts.length)
    (h1 : m ∈ ts.take (k + 1)) (h2 : ∀ x ∈ ts.take (k + 1), x ≤ m) :
    ∃ M, R[k]? = some M ∧ evalExCM frags [m] hm n = some [M] := by
  unfold evalExCM at hR ⊢
  rw [if_neg (by intro h0; simp at h0; subst h0; simp at hk)] at hR
  rw [if_neg (by simp)]
  have hk' : ts[k]? = some ts[k] := List.getElem?_eq_getElem hk
  let s : ExCM → List Row → Option ExCM := fun a f =>
    if f.isEmpty then some a else unpackExCM n f a (masksOf f (passMask [m] hm))
  obtain ⟨r, g1, g2⟩ := foldlM_component (k := k) (s := s) (by
      intro acc f acc' hS a ha
      simp only [s]
      split at hS
      · rename_i he
        simp only [Option.some.injEq] at hS
        subst hS
        exact ⟨a, ha, by rw [if_pos he]⟩
      · rename_i he
        rw [if_neg he]
        obtain ⟨y, hy1, hy2⟩ := (mapM_option hS).2 k (a, masksOf f (passMask (ts.take (k + 1)) hm)) (by
          rw [List.getElem?_zip_eq_some]
          exact ⟨ha, by rw [pairMasks_eq, List.getElem?_map, prefixes_get hk]; rfl⟩)
        rw [passMask_max h1 h2] at hy2
        exact ⟨y, hy1, hy2⟩)
    frags _ R (ExCM.empty n) hR (by rw [List.getElem?_map, hk']; rfl)
  refine ⟨r, g1, ?_⟩
  rw [List.map_cons, List.map_nil, foldlM_single (s := s), g2]
  · rfl
  · intro a f
    simp only [s]
    split
    · rfl
    · rw [pairMasks_eq]
      have : (prefixes [m]) = [[m]] := rfl
      rw [this, List.map_cons, List.map_nil, List.zip_cons_cons, List.zip_nil_left, List.mapM_cons,
        List.mapM_nil]
      cases unpackExCM n f a (masksOf f (passMask [m] hm)) with
      | none => rfl
      | some b => rfl

/-- **C18 (examples, exact).** -/
theorem C18_examples_running_max (rows : List Row) (labels : List String) (ts : List Rat) (hm : Bool)
    (k : Nat) (R : List (List Example)) (hR : examplesOf rows labels ts hm = some R) (m : Rat)
    (hk : k < ts.length) (h1 : m ∈ ts.take (k + 1)) (h2 : ∀ x ∈ ts.take (k + 1), x ≤ m) :
    ∃ R', examplesOf rows labels [m] hm = some R' ∧ R'.length = R.length ∧
      ∀ (j : Nat) (es : List Example), R[j]? = some es → ∃ e, es[k]? = some e ∧ R'[j]? = some [e] := by
  unfold examplesOf at hR ⊢
  have hpt : ∀ d ∈ uniqueAsc (rows.map Row.datum), ∃ e,
      (pairMasks rows [m] hm).mapM (exampleOf rows labels d) = some [e] := by
    intro d hd
    obtain ⟨j, hj⟩ := List.mem_iff_getElem?.1 hd
    obtain ⟨es, _, he⟩ := (mapM_option hR).2 j d hj
    obtain ⟨e, _, he2⟩ := (mapM_option he).2 k (masksOf rows (passMask (ts.take (k + 1)) hm)) (by
      rw [pairMasks_eq, List.getElem?_map, prefixes_get hk]; rfl)
    rw [passMask_max h1 h2] at he2
    refine ⟨e, ?_⟩
    rw [pairMasks_eq]
    have : (prefixes [m]) = [[m]] := rfl
    rw [this, List.map_cons, List.map_nil, List.mapM_cons, List.mapM_nil, he2]
    rfl
  have hall : ∃ R', (uniqueAsc (rows.map Row.datum)).mapM (fun d =>
      (pairMasks rows [m] hm).mapM (exampleOf rows labels d)) = some R' :=
    ⟨_, mapM_some _ (fun d => ((pairMasks rows [m] hm).mapM (exampleOf rows labels d)).getD []) _ (by
      intro d hd
      obtain ⟨e, he⟩ := hpt d hd
      rw [he]; rfl)⟩
  obtain ⟨R', hR'⟩ := hall
  refine ⟨R', hR', by rw [(mapM_option hR).1, (mapM_option hR').1], ?_⟩
  intro j es hes
  have hjlt : j < (uniqueAsc (rows.map Row.datum)).length := by
    rw [← (mapM_option hR).1]
    by_contra hc
    rw [List.getElem?_eq_none (by omega)] at hes
    exact absurd hes (by simp)
  obtain ⟨es', g1, g2⟩ := (mapM_option hR).2 j _ (List.getElem?_eq_getElem hjlt)
  rw [hes] at g1
  simp only [Option.some.injEq] at g1
  subst g1
  obtain ⟨e, he, he2⟩ := (mapM_option g2).2 k (masksOf rows (passMask (ts.take (k + 1)) hm)) (by
      rw [pairMasks_eq, List.getElem?_map, prefixes_get hk]; rfl)
  rw [passMask_max h1 h2] at he2
  refine ⟨e, he, ?_⟩
  obtain ⟨es2, q1, q2⟩ := (mapM_option hR').2 j _ (List.getElem?_eq_getElem hjlt)
  rw [q1]
  rw [pairMasks_eq] at q2
  have : (prefixes [m]) = [[m]] := rfl
  rw [this, List.map_cons, List.map_nil, List.mapM_cons, List.mapM_nil, he2] at q2
  simpa using q2.symm

/-- The full statement of C18 for the confusion matrix and for threshold lists satisfying `P`. -/
def MatrixPerThreshold (P : List Rat → Prop) : Prop :=
  ∀ (frags : List (List Row)) (ts : List Rat) (hm : Bool) (n k : Nat) (t : Rat) (R : List CM), P ts →
    evalCM frags ts hm n = some R → ts[k]? = some t →
    ∃ M, R[k]? = some M ∧ evalCM frags [t] hm n = some [M]

theorem last_max {ts : List Rat} (h : ts.Pairwise (· ≤ ·)) {k : Nat} {t : Rat} (hk : ts[k]? = some t) :
    t ∈ ts.take (k + 1) ∧ ∀ x ∈ ts.take (k + 1), x ≤ t := by
  have hlt := take_succ_lt hk
  constructor
  · apply List.mem_of_getElem? (i := k)
    rw [List.getElem?_take_of_lt (Nat.lt_succ_self k), hk]
  · intro x hx
    obtain ⟨j, hj⟩ := List.mem_iff_getElem?.1 hx
    have hjk : j < k + 1 := by
      by_contra hc
      rw [List.getElem?_eq_none (by simp; omega)] at hj
      exact absurd hj (by simp)
    rw [List.getElem?_take_of_lt hjk] at hj
    rcases Nat.lt_or_ge j k with h1 | h1
    · have e1 : ts[k] = t := by rw [List.getElem?_eq_getElem hlt] at hk; exact Option.some.inj hk
      have e2 : ts[j] = x := by
        rw [List.getElem?_eq_getElem (by omega)] at hj; exact Option.some.inj hj
      rw [← e1, ← e2]
      exact List.pairwise_iff_getElem.1 h j k (by omega) hlt h1
    · have : j = k := by omega
      subst this
      rw [hj] at hk
      rw [Option.some.inj hk]

/-- **C18 (partial).** It holds for thresholds in ascending order, for the matrix, the matrix with
examples and the examples. -/
theorem C18_matrix_partial : MatrixPerThreshold (List.Pairwise (· ≤ ·)) := by
  intro frags ts hm n k t R hP hR hk
  obtain ⟨h1, h2⟩ := last_max hP hk
  exact C18_cm_running_max frags ts hm n k R hR t (take_succ_lt hk) h1 h2

theorem C18_excm_partial (frags : List (List Row)) (ts : List Rat) (hP : ts.Pairwise (· ≤ ·)) (hm : Bool)
    (n k : Nat) (t : Rat) (R : List ExCM) (hR : evalExCM frags ts hm n = some R) (hk : ts[k]? = some t) :
    ∃ M, R[k]? = some M ∧ evalExCM frags [t] hm n = some [M] := by
  obtain ⟨h1, h2⟩ := last_max hP hk
  exact C18_excm_running_max frags ts hm n k R hR t (take_succ_lt hk) h1 h2

/-- **C18, violated.** With thresholds `[1/2, 0]` the second matrix is that of threshold 1/2. -/
theorem C18_violation : ¬ MatrixPerThreshold (fun _ => True) := by
  intro h
  let rows : List Row := [⟨"d", "", 0, "a", 0, "a", 0, 3/10, true, true⟩]
  have hR : evalCM [rows] [1/2, 0] true 1 = some [⟨[[0]], [1]⟩, ⟨[[0]], [1]⟩] := by decide +kernel
  obtain ⟨M, h1, h2⟩ := h [rows] [1/2, 0] true 1 1 0 _ trivial hR rfl
  have h3 : evalCM [rows] [0] true 1 = some [⟨[[1]], [0]⟩] := by decide +kernel
  rw [h3] at h2
  simp only [List.getElem?_cons_succ, List.getElem?_cons_zero, Option.some.injEq] at h1
  subst h1
  revert h2
  decide +kernel

example : [(0 : Rat), 1/2, 1/2, 9/10].Pairwise (· ≤ ·) := by decide +kernel
example : ((evalCM (Loader.init.addAll sample).rows [0, 1/2, 9/10] true 3).map
    (fun R => decide (R[1]? ≠ R[2]?))) = some true := by decide +kernel
example : (evalExCM (Loader.init.addAll sample).rows [0, 1/2, 9/10] true 3).isSome = true := by
  decide +kernel
example : ((evalCounts (Loader.init.addAll sample).rows [9/10, 0] false 3).map
    (fun R => decide (R[0]? ≠ R[1]?))) = some true := by decide +kernel
example : (examplesOf (Loader.init.addAll sample).rows.flatten ["cat", "dog", "bird"] [9/10, 0]
    true).isSome = true := by decide +kernel

/-! ## C19 -/

/-- Prediction `i` of `c` enters the confusion matrix at threshold `t`. -/
def Shown (t : Rat) (hardmax : Bool) (c : Classif) (i : Nat) : Prop :=
  (∃ s, c.scores[i]? = some s ∧ t ≤ s ∧ 1 / 1000000000 < s) ∧ (hardmax = true → IsWinner c i)

open Classical in
/-- Number of datums with ground truth `g` for which `p` is predicted. -/
noncomputable def specCell (cs : List Classif) (t : Rat) (hm : Bool) (g p : String) : Nat :=
  cs.countP (fun c => decide (c.gt = g ∧ ∃ i, c.preds[i]? = some p ∧ Shown t hm c i))

open Classical in
/-- Number of datums with ground truth `g` for which nothing is predicted. -/
noncomputable def specMissed (cs : List Classif) (t : Rat) (hm : Bool) (g : String) : Nat :=
  cs.countP (fun c => decide (c.gt = g ∧ ∀ i, ¬ Shown t hm c i))

/-- The row of prediction `i`. -/
def rowOf (L : List String) (k : Nat) (c : Classif) (i : Nat) (p : String) (s : Rat) : Row :=
  { uid := c.uid, info := c.info, datum := k, gtLabel := c.gt, gt := L.idxOf c.gt, pdLabel := p,
    pd := L.idxOf p, score := s, winner := argmax c.scores == i, isMatch := decide (c.gt = p) }

theorem mem_rowsOf {L : List String} {k : Nat} {c : Classif} {r : Row} :
    r ∈ rowsOf L k c ↔ ∃ i p s, c.preds[i]? = some p ∧ c.scores[i]? = some s ∧ r = rowOf L k c i p s := by
  simp only [rowsOf, List.mem_map]
  constructor
  · rintro ⟨⟨⟨p, s⟩, i⟩, hx, rfl⟩
    have := List.mem_zipIdx_iff_getElem?.1 hx
    obtain ⟨h1, h2⟩ := List.getElem?_zip_eq_some.1 this
    exact ⟨i, p, s, h1, h2, rfl⟩
  · rintro ⟨i, p, s, h1, h2, rfl⟩
    exact ⟨((p, s), i), List.mem_zipIdx_iff_getElem?.2 (List.getElem?_zip_eq_some.2 ⟨h1, h2⟩), rfl⟩

theorem pass_shown {c : Classif} (hne : c.scores ≠ []) {L : List String} {k i : Nat} {p : String} {s t : Rat}
    {h : Bool} (hs : c.scores[i]? = some s) :
    passMask [t] h (rowOf L k c i p s) = true ↔ Shown t h c i := by
  unfold passMask Shown
  rw [isWinner_argmax hne]
  simp only [rowOf, List.all_cons, List.all_nil, Bool.and_true, Bool.and_eq_true, decide_eq_true_eq,
    Bool.or_eq_true, Bool.not_eq_true', beq_iff_eq, gt_iff_lt, ge_iff_le]
  constructor
  · rintro ⟨⟨h1, h2⟩, h3⟩
    refine ⟨⟨s, hs, h2, h1⟩, ?_⟩
    intro ht
    rcases h3 with h3 | h3
    · rw [ht] at h3; exact absurd h3 (by simp)
    · exact h3
  · rintro ⟨⟨s', h1, h2, h3⟩, h4⟩
    rw [hs] at h1
    have := Option.some.inj h1
    subst this
    refine ⟨⟨h3, h2⟩, ?_⟩
    cases h with
    | false => exact Or.inl rfl
    | true => exact Or.inr (h4 rfl)

theorem shown_score {c : Classif} {L : List String} (hc : Covers L c) {t : Rat} {h : Bool} {i : Nat}
    (hs : Shown t h c i) : ∃ p s, c.preds[i]? = some p ∧ c.scores[i]? = some s := by
  obtain ⟨⟨s, h1, _⟩, _⟩ := hs
  have hlt : i < c.scores.length := by
    by_contra hcon
    rw [List.getElem?_eq_none (by omega)] at h1
    exact absurd h1 (by simp)
  rw [← hc.valid] at hlt
  exact ⟨_, s, List.getElem?_eq_getElem hlt, h1⟩

theorem datum_rowsOf {L : List String} {k : Nat} {c : Classif} : ∀ r ∈ rowsOf L k c, r.datum = k := by
  intro r hr
  obtain ⟨i, p, s, _, _, rfl⟩ := mem_rowsOf.1 hr
  rfl

open Classical in
theorem cmC_block {L : List String} {c : Classif} (hc : Covers L c) (k : Nat) (h : Bool) (t : Rat)
    {g p : String} (hg : g ∈ L) (hp : p ∈ L) :
    cmC (rowsOf L k c) [t] h (L.idxOf g : Nat) (L.idxOf p : Nat) = specCell [c] t h g p := by
  unfold cmC
  rw [dc_block datum_rowsOf]
  unfold specCell
  rw [List.countP_cons, List.countP_nil, Nat.zero_add]
  have : ((rowsOf L k c).any (fun r => passMask [t] h r &&
        decide ((r.gt, r.pd) = (((L.idxOf g : Nat) : Int), ((L.idxOf p : Nat) : Int)))) = true)
      ↔ (c.gt = g ∧ ∃ i, c.preds[i]? = some p ∧ Shown t h c i) := by
    rw [List.any_eq_true]
    constructor
    · rintro ⟨r, hr, hm⟩
      obtain ⟨i, q, s, h1, h2, rfl⟩ := mem_rowsOf.1 hr
      rw [Bool.and_eq_true, decide_eq_true_eq, pass_shown hc.scores_ne h2] at hm
      obtain ⟨m1, m2⟩ := hm
      simp only [rowOf, Prod.mk.injEq, Int.natCast_inj] at m2
      have e1 : c.gt = g := (List.idxOf_inj hc.gt).1 m2.1
      have e2 : q = p := (List.idxOf_inj (hc.preds q (List.mem_of_getElem? h1))).1 m2.2
      subst e2
      exact ⟨e1, i, h1, m1⟩
    · rintro ⟨rfl, i, h1, h2⟩
      obtain ⟨_, s, _, hs⟩ := shown_score hc h2
      refine ⟨rowOf L k c i p s, mem_rowsOf.2 ⟨i, p, s, h1, hs, rfl⟩, ?_⟩
      rw [Bool.and_eq_true, pass_shown hc.scores_ne hs]
      exact ⟨h2, by simp [rowOf]⟩
  by_cases hx : c.gt = g ∧ ∃ i, c.preds[i]? = some p ∧ Shown t h c i
  · rw [if_pos (this.2 hx), if_pos (by simpa using hx)]
  · rw [if_neg (fun hh => hx (this.1 hh)), if_neg (by simpa using hx)]

theorem unmatched_rowsOf {L : List String} {c : Classif} (hc : Covers L c) (k : Nat) (h : Bool) (t : Rat)
    {r : Row} (hr : r ∈ rowsOf L k c) :
    (masksOf (rowsOf L k c) (passMask [t] h)).unmatched r = true ↔ ∀ i, ¬ Shown t h c i := by
  obtain ⟨j, q, s, h1, h2, rfl⟩ := mem_rowsOf.1 hr
  simp only [masksOf, Bool.not_eq_true', List.any_eq_false]
  constructor
  · intro hall i hi
    obtain ⟨p', s', g1, g2⟩ := shown_score hc hi
    apply hall _ (mem_rowsOf.2 ⟨i, p', s', g1, g2, rfl⟩)
    rw [Bool.and_eq_true, pass_shown hc.scores_ne g2]
    exact ⟨hi, by simp [rowOf]⟩
  · intro hall r' hr' hcon
    obtain ⟨i, p', s', g1, g2, rfl⟩ := mem_rowsOf.1 hr'
    rw [Bool.and_eq_true, pass_shown hc.scores_ne g2] at hcon
    exact hall i hcon.1

theorem exists_row {L : List String} {c : Classif} (hc : Covers L c) (k : Nat) :
    ∃ r, r ∈ rowsOf L k c := by
  have h0 : 0 < c.preds.length := by
    rcases Nat.eq_zero_or_pos c.preds.length with h | h
    · exact absurd (List.length_eq_zero_iff.1 h) hc.ne
    · exact h
  have h1 : 0 < c.scores.length := by rw [← hc.valid]; exact h0
  exact ⟨_, mem_rowsOf.2 ⟨0, _, _, List.getElem?_eq_getElem h0, List.getElem?_eq_getElem h1, rfl⟩⟩

open Classical in
theorem cmU_block {L : List String} {c : Classif} (hc : Covers L c) (k : Nat) (h : Bool) (t : Rat)
    {g : String} : cmU (rowsOf L k c) [t] h (L.idxOf g : Nat) = specMissed [c] t h g := by
  unfold cmU
  rw [dc_block datum_rowsOf]
  unfold specMissed
  rw [List.countP_cons, List.countP_nil, Nat.zero_add]
  have : ((rowsOf L k c).any (fun r => (masksOf (rowsOf L k c) (passMask [t] h)).unmatched r &&
        decide (r.gt = ((L.idxOf g : Nat) : Int))) = true)
      ↔ (c.gt = g ∧ ∀ i, ¬ Shown t h c i) := by
    rw [List.any_eq_true]
    constructor
    · rintro ⟨r, hr, hm⟩
      rw [Bool.and_eq_true, decide_eq_true_eq, unmatched_rowsOf hc k h t hr] at hm
      obtain ⟨i, q, s, h1, h2, rfl⟩ := mem_rowsOf.1 hr
      simp only [rowOf, Int.natCast_inj] at hm
      exact ⟨(List.idxOf_inj hc.gt).1 hm.2, hm.1⟩
    · rintro ⟨rfl, hall⟩
      obtain ⟨r, hr⟩ := exists_row hc k
      refine ⟨r, hr, ?_⟩
      rw [Bool.and_eq_true, unmatched_rowsOf hc k h t hr]
      refine ⟨hall, ?_⟩
      obtain ⟨i, q, s, h1, h2, rfl⟩ := mem_rowsOf.1 hr
      simp [rowOf]
  by_cases hx : c.gt = g ∧ ∀ i, ¬ Shown t h c i
  · rw [if_pos (this.2 hx), if_pos (by simpa using hx)]
  · rw [if_neg (fun hh => hx (this.1 hh)), if_neg (by simpa using hx)]

theorem blocks_disjoint {L : List String} {c : Classif} {cs : List Classif} {n : Nat} :
    ∀ x ∈ rowsOf L n c, ∀ y ∈ ((cs.zipIdx (n + 1)).map (fun x => rowsOf L x.2 x.1)).flatten,
      x.datum ≠ y.datum := by
  intro x hx y hy
  rw [datum_rowsOf x hx]
  simp only [List.mem_flatten, List.mem_map] at hy
  obtain ⟨_, ⟨⟨d, k⟩, hk, rfl⟩, hy⟩ := hy
  rw [datum_rowsOf y hy]
  have := (List.mem_zipIdx hk).1
  simp only [ne_eq, Int.natCast_inj]
  omega

theorem cm_blocks {L : List String} (h : Bool) (t : Rat) {g p : String} (hg : g ∈ L) (hp : p ∈ L)
    (cs : List Classif) : ∀ n, (∀ c ∈ cs, Covers L c) →
    cmC ((cs.zipIdx n).map (fun x => rowsOf L x.2 x.1)).flatten [t] h (L.idxOf g : Nat) (L.idxOf p : Nat)
        = specCell cs t h g p ∧
    cmU ((cs.zipIdx n).map (fun x => rowsOf L x.2 x.1)).flatten [t] h (L.idxOf g : Nat)
        = specMissed cs t h g := by
  induction cs with
  | nil => intro n _; exact ⟨rfl, rfl⟩
  | cons c cs ih =>
    intro n hc
    obtain ⟨i1, i2⟩ := ih (n + 1) (fun d hd => hc d (by simp [hd]))
    rw [List.zipIdx_cons, List.map_cons, List.flatten_cons, cmC_append blocks_disjoint,
      cmU_append blocks_disjoint, i1, i2, cmC_block (hc c (by simp)) n h t hg hp,
      cmU_block (hc c (by simp)) n h t]
    simp only [specCell, specMissed, List.countP_cons, List.countP_nil]
    exact ⟨by omega, by omega⟩

/-- **C19 (matrix).** For every history (any number of labels), datum-aligned tables, threshold and
`hardmax` setting: entry `(g, p)` is the number of datums with ground truth `g` for which `p` is
predicted, and the unmatched ground truths are the datums for which nothing is predicted. -/
theorem C19_matrix (calls : List (List Classif)) (hv : ∀ c ∈ calls.flatten, c.valid = true)
    (frags : List (List Row)) (hf : FragmentsOf frags (Loader.init.addAll calls).rows.flatten)
    (t : Rat) (hm : Bool) :
    let L := (Loader.init.addAll calls).labels
    evalCM frags [t] hm L.length
      = some [⟨L.map (fun g => L.map (fun p => specCell (history calls) t hm g p)),
               L.map (fun g => specMissed (history calls) t hm g)⟩] := by
  intro L
  rw [evalCM_eq (inRange_reach calls) hf (by simp)]
  have hpre : prefixes [t] = [[t]] := rfl
  rw [hpre, List.map_cons, List.map_nil]
  have hnd : L.Nodup := (linv_reach calls).nodup
  rw [rows_reach calls]
  have hcov := covers_reach calls hv
  congr 2
  unfold cmTab
  rw [CM.mk.injEq]
  constructor
  · refine List.ext_getElem (by simp [L]) ?_
    intro i h1 h2
    have hi : i < L.length := by simpa using h2
    rw [List.getElem_map, List.getElem_map, List.getElem_range]
    refine List.ext_getElem (by simp [L]) ?_
    intro j h3 h4
    have hj : j < L.length := by simpa using h4
    rw [List.getElem_map, List.getElem_map, List.getElem_range]
    rw [← (cm_blocks hm t (List.getElem_mem hi) (List.getElem_mem hj) (history calls) 0 hcov).1,
      hnd.idxOf_getElem i hi, hnd.idxOf_getElem j hj]
  · refine List.ext_getElem (by simp [L]) ?_
    intro i h1 h2
    have hi : i < L.length := by simpa using h2
    rw [List.getElem_map, List.getElem_map, List.getElem_range]
    rw [← (cm_blocks hm t (List.getElem_mem hi) (List.getElem_mem hi) (history calls) 0 hcov).2,
      hnd.idxOf_getElem i hi]

theorem sum_map_zero {α : Type} (f : α → Nat) (l : List α) (h : ∀ x ∈ l, f x = 0) :
    (l.map f).sum = 0 := by
  rw [List.sum_eq_zero_iff]
  intro y hy
  obtain ⟨x, hx, rfl⟩ := List.mem_map.1 hy
  exact h x hx

theorem sum_indicator {L : List String} (hnd : L.Nodup) {q : String} (hq : q ∈ L) (f : String → Nat)
    (h : ∀ x ∈ L, x ≠ q → f x = 0) : (L.map f).sum = f q := by
  induction L with
  | nil => exact absurd hq (by simp)
  | cons x L ih =>
    obtain ⟨hx, hnd⟩ := List.nodup_cons.1 hnd
    rw [List.map_cons, List.sum_cons]
    rcases List.mem_cons.1 hq with rfl | h1
    · rw [sum_map_zero]
      · omega
      · intro y hy
        exact h y (by simp [hy]) (fun e => hx (e ▸ hy))
    · rw [ih hnd h1 (fun y hy => h y (by simp [hy])), h x (by simp) (fun e => hx (e ▸ h1))]
      omega

/-- **C19 (every winner is accounted for).** With winner-take-all, each datum is counted exactly once
in the row of its ground truth: the row of the matrix plus the unmatched count is the number of datums
with that ground truth. -/
theorem C19_conservation (calls : List (List Classif)) (hv : ∀ c ∈ calls.flatten, c.valid = true)
    (t : Rat) (g : String) :
    ((Loader.init.addAll calls).labels.map (fun p => specCell (history calls) t true g p)).sum
      + specMissed (history calls) t true g
      = (history calls).countP (fun c => decide (c.gt = g)) := by
  classical
  have hnd : (Loader.init.addAll calls).labels.Nodup := (linv_reach calls).nodup
  have hcov := covers_reach calls hv
  generalize (Loader.init.addAll calls).labels = L at hnd hcov
  generalize history calls = cs at hcov
  induction cs with
  | nil => simp [specCell, specMissed]
  | cons c cs ih =>
    have ih' := ih (fun d hd => hcov d (by simp [hd]))
    have hc := hcov c (by simp)
    have e1 : ∀ p, specCell (c :: cs) t true g p = specCell [c] t true g p + specCell cs t true g p := by
      intro p; simp only [specCell, List.countP_cons, List.countP_nil]; omega
    have e2 : specMissed (c :: cs) t true g = specMissed [c] t true g + specMissed cs t true g := by
      simp only [specMissed, List.countP_cons, List.countP_nil]; omega
    have e3 : (L.map (fun p => specCell (c :: cs) t true g p)).sum
        = (L.map (fun p => specCell [c] t true g p)).sum + (L.map (fun p => specCell cs t true g p)).sum := by
      rw [← map_add_sum]
      congr 1
      exact List.map_congr_left (fun p _ => e1 p)
    rw [e3, e2, List.countP_cons]
    have one : (L.map (fun p => specCell [c] t true g p)).sum + specMissed [c] t true g
        = if decide (c.gt = g) then 1 else 0 := by
      simp only [specCell, specMissed, List.countP_cons, List.countP_nil, Nat.zero_add, decide_eq_true_eq]
      by_cases hgt : c.gt = g
      · rw [if_pos hgt]
        obtain ⟨v, w1, w2, w3⟩ := argmax_spec c.scores hc.scores_ne
        have hw : ∀ i, Shown t true c i → i = argmax c.scores := by
          rintro i ⟨_, h⟩
          exact ((isWinner_argmax hc.scores_ne i).1 (h rfl)).symm
        by_cases hs : Shown t true c (argmax c.scores)
        · obtain ⟨p, s, hp, _⟩ := shown_score hc hs
          rw [if_neg (fun hh => hh.2 _ hs)]
          rw [sum_indicator hnd (hc.preds p (List.mem_of_getElem? hp))]
          · rw [if_pos ⟨hgt, _, hp, hs⟩]
          · intro q _ hq
            rw [if_neg]
            rintro ⟨_, i, h1, h2⟩
            rw [hw i h2, hp] at h1
            exact hq (Option.some.inj h1).symm
        · rw [if_pos ⟨hgt, fun i hi => hs (hw i hi ▸ hi)⟩, sum_map_zero]
          intro q _
          rw [if_neg]
          rintro ⟨_, i, _, h2⟩
          exact hs (hw i h2 ▸ h2)
      · rw [if_neg hgt, if_neg (fun hh => hgt hh.1), sum_map_zero]
        intro q _
        rw [if_neg (fun hh => hgt hh.1)]
    omega

example : evalCM [(Loader.init.addAll sample).rows.getD 1 [],
     (Loader.init.addAll sample).rows.getD 2 [] ++ (Loader.init.addAll sample).rows.getD 0 []] [17/20] true 3
    = some [⟨[[0, 0, 0], [1, 0, 0], [0, 0, 0]], [1, 1, 0]⟩] := by decide +kernel

/-! ## C20 -/

/-- The full statement of C20 for label ids satisfying `P`: the comparison used in counting and
matching holds exactly for equal ids. -/
def LabelsDistinguished (P : Int → Int → Prop) : Prop :=
  ∀ r : Row, 0 ≤ r.gt → 0 ≤ r.pd → P r.gt r.pd → (labelMatch r = true ↔ r.gt = r.pd)

/-- **C20 (partial).** It holds for predicted label ids below 100000. -/
theorem C20_partial : LabelsDistinguished (fun _ p => p < 100000) := by
  intro r _ h2 h3
  unfold labelMatch
  rw [isclose_ids h2 h3, decide_eq_true_eq]

/-- **C20, violated.** From 100000 labels on, neighbouring ids are taken for the same label. -/
theorem C20_violation : ¬ LabelsDistinguished (fun _ _ => True) := by
  intro h
  have := (h ⟨"", "", 0, "", 99999, "", 100000, 1, true, false⟩ (by decide) (by decide) trivial).1
    (by decide +kernel)
  revert this
  decide

/-- **C20, violated for every id.** Every label id from 100000 on is confounded with its predecessor. -/
theorem C20_every_id (p : Int) (hp : 100000 ≤ p) (r : Row) (h1 : r.gt = p - 1) (h2 : r.pd = p) :
    labelMatch r = true := by
  unfold labelMatch isclose
  rw [h1, h2, decide_eq_true_eq]
  have e : ((p - 1 : Int) : Rat) - (p : Rat) = -1 := by push_cast; ring
  rw [e, abs_neg, abs_one]
  have : (100000 : Rat) ≤ p := by exact_mod_cast hp
  rw [abs_of_nonneg (by linarith)]
  linarith

/-- Such a row: the label ids 123455 and 123456 count as the same label. -/
example : labelMatch ⟨"u", "", 0, "a", 123455, "b", 123456, 1 / 2, true, false⟩ = true := C20_every_id 123456 (by norm_num) _ rfl rfl

example : ∃ r : Row, 0 ≤ r.gt ∧ 0 ≤ r.pd ∧ r.pd < 100000 ∧ r.gt ≠ r.pd :=
  ⟨⟨"", "", 0, "", 99998, "", 99999, 1, true, false⟩, by decide⟩

end Verif.Classification
