import Verif.Classification.Roc
import Verif.Classification.AgreeProps
import Mathlib.Tactic.Ring
import Mathlib.Tactic.FieldSimp

/-! # Lemmas about the ROC curve -/

namespace Verif.Classification

/-! ## Emitted points -/

/-- The points emitted for a stream of rows: the totals before every change of score. -/
def emit : Nat → Nat → Rat → List IRow → List (Nat × Nat)
  | _, _, _, [] => []
  | fp, tp, run, r :: rs =>
    (if r.score = run then [] else [(fp, tp)])
      ++ emit (fp + (!r.isMatch).toNat) (tp + r.isMatch.toNat) r.score rs

theorem changes_cons (a b : Rat) (l : List Rat) :
    changes (a :: b :: l) = (if b = a then [] else [0]) ++ (changes (b :: l)).map (· + 1) := by
  unfold changes
  have h1 : (a :: b :: l).length - 1 = l.length + 1 := by simp
  have h2 : (b :: l).length - 1 = l.length := by simp
  rw [h1, h2, List.range_succ_eq_map, List.filter_cons, List.filter_map]
  have e : (List.range l.length).filter ((fun j => decide ((a :: b :: l)[j + 1]? ≠ (a :: b :: l)[j]?)) ∘ Nat.succ)
      = (List.range l.length).filter (fun j => decide ((b :: l)[j + 1]? ≠ (b :: l)[j]?)) := by
    apply List.filter_congr
    intro j _
    simp [Function.comp]
  rw [e]
  by_cases h : b = a
  · rw [if_pos h, if_neg (by simp [h])]; rfl
  · rw [if_neg h, if_pos (by simp [h])]; rfl

theorem cumsum_cons (n : Nat) (b : Bool) (bs : List Bool) :
    cumsum n (b :: bs) = n :: cumsum (n + b.toNat) bs := by
  simp [cumsum]

theorem pyAt_nat (xs : List Nat) (i : Nat) : pyAt xs (i : Int) = xs.getD i 0 := by
  simp [pyAt]

theorem rocStep_out (st : LState) (rows : List IRow) :
    (rocStep st rows).2 = emit st.fp st.tp st.score rows := by
  have key : ∀ (rows : List IRow) (fp tp : Nat) (run : Rat),
      (changes (run :: rows.map IRow.score)).map (fun j =>
        ((cumsum fp (rows.map (fun r => !r.isMatch))).getD j 0, (cumsum tp (rows.map IRow.isMatch)).getD j 0))
      = emit fp tp run rows := by
    intro rows
    induction rows with
    | nil => intro fp tp run; rfl
    | cons r rs ih =>
      intro fp tp run
      rw [List.map_cons, List.map_cons, List.map_cons, changes_cons, cumsum_cons, cumsum_cons, emit,
        List.map_append, List.map_map, ← ih]
      congr 1
      by_cases h : r.score = run <;> simp [h]
  unfold rocStep
  dsimp only
  rw [changes_cons, if_pos rfl, List.nil_append, List.map_map, List.map_map, ← key]
  apply List.map_congr_left
  intro j _
  have : (((fun j : Nat => (j : Int) - 1) ∘ (fun x => x + 1)) j) = (j : Int) := by simp
  simp only [Function.comp_apply]
  rw [show (((j + 1 : Nat) : Int) - 1) = (j : Int) by omega, pyAt_nat, pyAt_nat]

theorem cumsum_last (n : Nat) (bs : List Bool) : (cumsum n bs).getLastD 0 = n + bs.countP id := by
  induction bs generalizing n with
  | nil => rfl
  | cons b bs ih =>
    rw [cumsum_cons, List.countP_cons]
    have : (n :: cumsum (n + b.toNat) bs).getLastD 0 = (cumsum (n + b.toNat) bs).getLastD 0 := by
      cases h : cumsum (n + b.toNat) bs with
      | nil => cases bs <;> simp [cumsum] at h
      | cons x xs => simp [List.getLastD_eq_getLast?]
    rw [this, ih]
    cases b <;> simp <;> omega

/-- State after a stream. -/
def adv (st : LState) (rows : List IRow) : LState :=
  ⟨st.fp + rows.countP (fun r => !r.isMatch), st.tp + rows.countP IRow.isMatch,
   (st.score :: rows.map IRow.score).getLastD 0, (emit st.fp st.tp st.score rows).getLastD st.last⟩

theorem rocStep_eq (st : LState) (rows : List IRow) :
    rocStep st rows = (adv st rows, emit st.fp st.tp st.score rows) := by
  rw [← rocStep_out]
  unfold rocStep adv
  dsimp only
  rw [cumsum_last, cumsum_last, List.countP_map, List.countP_map]
  refine Prod.ext ?_ rfl
  simp only [LState.mk.injEq]
  refine ⟨rfl, rfl, trivial, ?_⟩
  have := rocStep_out st rows
  unfold rocStep at this
  dsimp only at this
  rw [this]

theorem adv_nil (st : LState) : adv st [] = st := by
  cases st
  simp [adv, emit]

theorem getLastD_cons_map (x : Rat) (a b : List Rat) :
    (((x :: a).getLastD 0) :: b).getLastD 0 = (x :: (a ++ b)).getLastD 0 := by
  simp only [List.getLastD_eq_getLast?, List.getLast?_cons, List.getLast?_append, Option.getD_some]
  cases b.getLast? <;> simp

theorem emit_append (a b : List IRow) : ∀ (fp tp : Nat) (run : Rat),
    emit fp tp run (a ++ b) = emit fp tp run a
      ++ emit (fp + a.countP (fun r => !r.isMatch)) (tp + a.countP IRow.isMatch)
          ((run :: a.map IRow.score).getLastD 0) b := by
  induction a with
  | nil => intro fp tp run; rfl
  | cons r rs ih =>
    intro fp tp run
    rw [List.cons_append, emit, emit, ih, List.append_assoc]
    congr 2
    rw [List.countP_cons, List.countP_cons]
    have h1 : fp + (!r.isMatch).toNat + rs.countP (fun r => !r.isMatch)
        = fp + (rs.countP (fun r => !r.isMatch) + if (!r.isMatch) = true then 1 else 0) := by
      cases r.isMatch <;> simp <;> omega
    have h2 : tp + r.isMatch.toNat + rs.countP IRow.isMatch
        = tp + (rs.countP IRow.isMatch + if r.isMatch = true then 1 else 0) := by
      cases r.isMatch <;> simp <;> omega
    rw [h1, h2]
    rfl

theorem adv_append (st : LState) (a b : List IRow) : adv st (a ++ b) = adv (adv st a) b := by
  unfold adv
  simp only [LState.mk.injEq]
  refine ⟨by rw [List.countP_append]; omega, by rw [List.countP_append]; omega, ?_, ?_⟩
  · rw [getLastD_cons_map, List.map_append]
  · rw [emit_append]
    simp only [List.getLastD_eq_getLast?, List.getLast?_append]
    cases (emit (st.fp + List.countP (fun r => !r.isMatch) a) (st.tp + List.countP IRow.isMatch a)
      ((st.score :: List.map IRow.score a).getLast?.getD 0) b).getLast? <;> simp

/-! ## Tables -/

/-- The rows of one label. -/
def only (k : Nat) (rows : List IRow) : List IRow := rows.filter (fun r => decide (r.label = (k : Int)))

/-- The points of one label. -/
def points (k : Nat) (rows : List RocRow) : List (Nat × Nat) :=
  (rows.filter (fun r => decide (r.label = k))).map (fun r => (r.fp, r.tp))

theorem points_append (k : Nat) (a b : List RocRow) : points k (a ++ b) = points k a ++ points k b := by
  simp [points]

theorem points_map (k j : Nat) (l : List (Nat × Nat)) :
    points k (l.map (fun x => (⟨j, x.1, x.2⟩ : RocRow))) = if j = k then l else [] := by
  unfold points
  rw [List.filter_map, List.map_map]
  by_cases h : j = k
  · simp [h, Function.comp_def]
  · simp [h, Function.comp_def]

theorem rocTable_spec (tbl : List IRow) : ∀ (keys : List Nat), keys.Nodup →
    ∀ (σ : Nat → LState) (out : List RocRow),
    let R := keys.foldl (fun (acc : (Nat → LState) × List RocRow) (k : Nat) =>
      let rows := tbl.filter (fun r => decide (r.label = (k : Int)))
      if rows.isEmpty then acc
      else
        let (s, out) := rocStep (acc.1 k) rows
        (Function.update acc.1 k s, acc.2 ++ out.map (fun x => ⟨k, x.1, x.2⟩))) (σ, out)
    ∀ k, (R.1 k = if k ∈ keys then adv (σ k) (only k tbl) else σ k) ∧
      (points k R.2 = points k out ++
        if k ∈ keys then emit (σ k).fp (σ k).tp (σ k).score (only k tbl) else []) := by
  intro keys
  induction keys with
  | nil => intro _ σ out R k; simp [R]
  | cons j keys ih =>
    intro hnd σ out R k
    obtain ⟨hj, hnd⟩ := List.nodup_cons.1 hnd
    have hstep : (if (tbl.filter (fun r => decide (r.label = (j : Int)))).isEmpty then (σ, out)
        else
          let (s, o) := rocStep (σ j) (tbl.filter (fun r => decide (r.label = (j : Int))))
          (Function.update σ j s, out ++ o.map (fun x => (⟨j, x.1, x.2⟩ : RocRow))))
        = (Function.update σ j (adv (σ j) (only j tbl)),
            out ++ (emit (σ j).fp (σ j).tp (σ j).score (only j tbl)).map (fun x => ⟨j, x.1, x.2⟩)) := by
      rw [rocStep_eq]
      dsimp only
      split
      · rename_i he
        have : only j tbl = [] := by simpa [only] using he
        rw [this, adv_nil]
        simp [emit]
      · rfl
    have hR := ih hnd (Function.update σ j (adv (σ j) (only j tbl)))
      (out ++ (emit (σ j).fp (σ j).tp (σ j).score (only j tbl)).map (fun x => ⟨j, x.1, x.2⟩)) k
    simp only [R, List.foldl_cons]
    rw [hstep]
    refine ⟨?_, ?_⟩
    · rw [hR.1]
      by_cases hkj : k = j
      · subst hkj
        rw [if_neg hj, if_pos (by simp), Function.update_self]
      · rw [Function.update_of_ne hkj]
        simp [hkj]
    · rw [hR.2, points_append, points_map, List.append_assoc]
      congr 1
      by_cases hkj : k = j
      · subst hkj
        rw [if_pos rfl, if_neg hj, if_pos (by simp), List.append_nil]
      · rw [if_neg (fun h => hkj h.symm), Function.update_of_ne hkj]
        simp [hkj]

theorem rocTables_spec (keys : List Nat) (hnd : keys.Nodup) (tables : List (List IRow)) (k : Nat) :
    ((rocTables keys tables).1 k = if k ∈ keys then adv LState.init (only k tables.flatten) else LState.init) ∧
      points k (rocTables keys tables).2
        = if k ∈ keys then emit 0 0 0 (only k tables.flatten) else [] := by
  unfold rocTables
  have gen : ∀ (ts : List (List IRow)) (σ : Nat → LState) (out : List RocRow) (pre : List IRow),
      (σ k = if k ∈ keys then adv LState.init (only k pre) else LState.init) →
      (points k out = if k ∈ keys then emit 0 0 0 (only k pre) else []) →
      let R := ts.foldl (fun (acc : (Nat → LState) × List RocRow) tbl =>
        let (σ, out) := rocTable keys acc.1 tbl
        (σ, acc.2 ++ out)) (σ, out)
      (R.1 k = if k ∈ keys then adv LState.init (only k (pre ++ ts.flatten)) else LState.init) ∧
      points k R.2 = if k ∈ keys then emit 0 0 0 (only k (pre ++ ts.flatten)) else [] := by
    intro ts
    induction ts with
    | nil => intro σ out pre h1 h2 R; simpa [R] using ⟨h1, h2⟩
    | cons tbl ts ih =>
      intro σ out pre h1 h2 R
      have hs := rocTable_spec tbl keys hnd σ [] k
      have hR := ih (rocTable keys σ tbl).1 (out ++ (rocTable keys σ tbl).2) (pre ++ tbl) (by
        unfold rocTable
        rw [hs.1, h1]
        by_cases hk : k ∈ keys
        · simp only [if_pos hk, only, List.filter_append]
          rw [adv_append]
        · simp only [if_neg hk]) (by
        rw [points_append]
        unfold rocTable
        rw [hs.2, h2, h1]
        by_cases hk : k ∈ keys
        · simp only [if_pos hk, only, List.filter_append]
          rw [emit_append]
          simp [points, adv, LState.init, List.filter_nil]
        · simp [hk, points])
      simp only [R, List.foldl_cons, List.flatten_cons]
      rw [← List.append_assoc]
      exact hR
  have := gen tables (fun _ => LState.init) [] [] (by simp [only, adv_nil]) (by simp [points, only, emit])
  simpa using this

theorem points_filterMap (n : Nat) (σ : Nat → LState) (k : Nat) (hk : k < n) :
    points k ((List.range n).filterMap (fun k =>
      if (σ k).last.1 ≠ (σ k).fp ∨ (σ k).last.2 ≠ (σ k).tp then some (⟨k, (σ k).fp, (σ k).tp⟩ : RocRow)
      else none))
    = if (σ k).last ≠ ((σ k).fp, (σ k).tp) then [((σ k).fp, (σ k).tp)] else [] := by
  have gen : ∀ (l : List Nat), l.Nodup → points k (l.filterMap (fun k =>
      if (σ k).last.1 ≠ (σ k).fp ∨ (σ k).last.2 ≠ (σ k).tp then some (⟨k, (σ k).fp, (σ k).tp⟩ : RocRow)
      else none))
      = if k ∈ l then (if (σ k).last ≠ ((σ k).fp, (σ k).tp) then [((σ k).fp, (σ k).tp)] else []) else [] := by
    intro l
    induction l with
    | nil => intro _; rfl
    | cons j l ih =>
      intro hnd
      obtain ⟨hj, hnd⟩ := List.nodup_cons.1 hnd
      have ih := ih hnd
      have hiff : ∀ j, ((σ j).last.1 ≠ (σ j).fp ∨ (σ j).last.2 ≠ (σ j).tp)
          ↔ (σ j).last ≠ ((σ j).fp, (σ j).tp) := by
        intro j
        rw [ne_eq, ne_eq, ne_eq, Prod.ext_iff, not_and_or]
      rw [List.filterMap_cons]
      by_cases hc : (σ j).last.1 ≠ (σ j).fp ∨ (σ j).last.2 ≠ (σ j).tp
      · rw [if_pos hc]
        dsimp only
        have e : ∀ rest : List RocRow, points k ((⟨j, (σ j).fp, (σ j).tp⟩ : RocRow) :: rest)
            = (if j = k then [((σ j).fp, (σ j).tp)] else []) ++ points k rest := by
          intro rest
          unfold points
          rw [List.filter_cons]
          by_cases h : j = k <;> simp [h]
        rw [e, ih]
        by_cases hkj : j = k
        · subst hkj
          rw [if_pos rfl, if_neg hj, if_pos (by simp), if_pos ((hiff _).1 hc)]
          rfl
        · rw [if_neg hkj]
          simp [Ne.symm hkj]
      · rw [if_neg hc]
        dsimp only
        rw [ih]
        by_cases hkj : j = k
        · subst hkj
          rw [if_neg hj, if_pos (by simp), if_neg (fun h => hc ((hiff _).2 h))]
        · simp [Ne.symm hkj]
  rw [gen _ List.nodup_range, if_pos (List.mem_range.2 hk)]

/-- Points are strictly increasing, and below the total. -/
theorem emit_lt (rs : List IRow) : ∀ (fp tp : Nat) (run : Rat), ∀ x ∈ emit fp tp run rs,
    fp + tp ≤ x.1 + x.2 ∧ x.1 + x.2 < fp + tp + rs.length := by
  induction rs with
  | nil => intro fp tp run x hx; exact absurd hx (by simp [emit])
  | cons r rs ih =>
    intro fp tp run x hx
    rw [emit, List.mem_append] at hx
    have hb : (!r.isMatch).toNat + r.isMatch.toNat = 1 := by cases r.isMatch <;> rfl
    rcases hx with hx | hx
    · split at hx
      · exact absurd hx (by simp)
      · rw [List.mem_singleton] at hx
        subst hx
        simp
    · have := ih _ _ _ x hx
      rw [List.length_cons]
      omega

theorem countP_split (rs : List IRow) :
    rs.countP (fun r => !r.isMatch) + rs.countP IRow.isMatch = rs.length := by
  induction rs with
  | nil => rfl
  | cons r rs ih =>
    rw [List.countP_cons, List.countP_cons, List.length_cons, ← ih]
    cases r.isMatch <;> simp <;> omega

/-- The points of a label in the ROC curve cache. -/
theorem points_curve {keys : List Nat} (hnd : keys.Nodup) {n k : Nat} (hk : k ∈ keys) (hn : k < n)
    (tables : List (List IRow)) :
    points k (rocCurve keys n tables) = emit 0 0 0 (only k tables.flatten)
      ++ (if only k tables.flatten = [] then []
          else [((only k tables.flatten).countP (fun r => !r.isMatch), (only k tables.flatten).countP IRow.isMatch)]) := by
  unfold rocCurve
  dsimp only
  rw [points_append, points_filterMap n _ k hn]
  obtain ⟨h1, h2⟩ := rocTables_spec keys hnd tables k
  rw [h1, h2, if_pos hk, if_pos hk]
  congr 1
  set s := only k tables.flatten with hs
  have e1 : (adv LState.init s).fp = s.countP (fun r => !r.isMatch) := by simp [adv, LState.init]
  have e2 : (adv LState.init s).tp = s.countP IRow.isMatch := by simp [adv, LState.init]
  rw [e1, e2]
  by_cases hse : s = []
  · rw [if_pos hse, if_neg]
    rw [hse, adv_nil]
    simp [LState.init]
  · rw [if_neg hse, if_pos]
    intro hcon
    have hlen : 0 < s.length := List.length_pos_iff.2 hse
    have hsum := countP_split s
    have hl : (adv LState.init s).last = (emit 0 0 0 s).getLastD (0, 0) := rfl
    rw [hl] at hcon
    cases hem : emit 0 0 0 s with
    | nil =>
      rw [hem] at hcon
      simp only [List.getLastD_nil, Prod.mk.injEq] at hcon
      omega
    | cons x xs =>
      have hmem : (emit 0 0 0 s).getLastD (0, 0) ∈ emit 0 0 0 s := by
        rw [hem, List.getLastD_eq_getLast?, List.getLast?_eq_getLast_of_ne_nil (by simp), Option.getD_some]
        exact List.getLast_mem _
      have := (emit_lt s 0 0 0 _ hmem).2
      rw [hcon] at this
      simp only at this
      omega

end Verif.Classification
