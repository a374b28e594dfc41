import Verif.Detection.CmReport
import Verif.Detection.ReportMetrics

/-! # C62: confusion matrices of all thresholds -/

namespace Verif.Detection

open Verif.Classification (unique)
open Verif.Shared (extractLabels)

/-! ## Flags -/

/-- The flags of row `k` at one pair of thresholds. -/
def flagsOf (rows : List Row) (t s : Rat) (k : Nat) : BitVec 8 :=
  (((if (rows.map (pairTp rows t s)).getD k false then flagTp else 0#8) ||| (if (rows.map (pairMisclf rows t s)).getD k false then flagMisclf else 0#8))
    ||| (if (rows.map (pairFp rows t s)).getD k false then flagFp else 0#8)) ||| (if (rows.map (pairFn rows t s)).getD k false then flagFn else 0#8)

theorem orAt_eq (a : Flags) (i j : Nat) (mask : List Bool) (flag : BitVec 8) (i' j' k : Nat) :
    orAt a i j mask flag i' j' k = if i' = i ∧ j' = j then a i' j' k ||| (if mask.getD k false then flag else 0#8) else a i' j' k := by
  unfold orAt
  by_cases h : i' = i ∧ j' = j
  · rw [if_pos h]
    by_cases hm : mask.getD k false = true
    · rw [if_pos ⟨h.1, h.2, hm⟩, if_pos hm]
    · rw [if_neg (fun hh => hm hh.2.2), if_neg hm]
      simp
  · rw [if_neg h, if_neg (fun hh => h ⟨hh.1, hh.2.1⟩)]

theorem classifyBody_eq (rows : List Row) (ious scores : List Rat) (i j : Nat) (a : Flags) (i' j' k : Nat) :
    classifyBody rows ious scores i a j i' j' k
      = if i' = i ∧ j' = j then a i' j' k ||| flagsOf rows (ious.getD i 0) (scores.getD j 0) k else a i' j' k := by
  unfold classifyBody flagsOf
  simp only [orAt_eq]
  by_cases h : i' = i ∧ j' = j
  · simp only [if_pos h, BitVec.or_assoc]
  · simp only [if_neg h]

theorem scoreFlags (rows : List Row) (ious scores : List Rat) (i : Nat) (a : Flags) (m : Nat) (i' j' k : Nat) :
    (List.range m).foldl (classifyBody rows ious scores i) a i' j' k
      = if i' = i ∧ j' < m then a i' j' k ||| flagsOf rows (ious.getD i 0) (scores.getD j' 0) k else a i' j' k := by
  induction m with
  | zero => simp
  | succ m ih =>
    rw [List.range_succ, List.foldl_append, List.foldl_cons, List.foldl_nil, classifyBody_eq, ih]
    by_cases hi : i' = i
    · subst hi
      by_cases hj : j' = m
      · subst hj
        simp
      · simp only [true_and, hj, if_false]
        have : j' < m + 1 ↔ j' < m := by omega
        simp only [this]
    · simp [hi]

theorem classify_eq (rows : List Row) (ious scores : List Rat) (i j k : Nat) (hi : i < ious.length) (hj : j < scores.length) :
    classify rows ious scores i j k = flagsOf rows (ious.getD i 0) (scores.getD j 0) k := by
  have : ∀ m, (List.range m).foldl (fun a i => (List.range scores.length).foldl (classifyBody rows ious scores i) a) (fun _ _ _ => 0#8) i j k
      = if i < m then flagsOf rows (ious.getD i 0) (scores.getD j 0) k else 0#8 := by
    intro m
    induction m with
    | zero => simp
    | succ m ih =>
      rw [List.range_succ, List.foldl_append, List.foldl_cons, List.foldl_nil, scoreFlags, ih]
      by_cases h : i = m
      · subst h
        simp [hj]
      · have h' : i < m + 1 ↔ i < m := by omega
        simp [h, h']
  unfold classify
  rw [this, if_pos hi]

theorem mask_eq {α : Type} (rows : List α) (p : α → Bool) : (List.range rows.length).map (fun k => (rows.map p).getD k false) = rows.map p := by
  apply List.ext_getElem
  · simp
  · intro i h1 h2
    have hi : i < rows.length := by simpa using h1
    simp [hi]

theorem flagMask_eq (rows : List Row) (ious scores : List Rat) (i j : Nat) (hi : i < ious.length) (hj : j < scores.length) :
    flagMask (classify rows ious scores) flagTp i j rows.length = rows.map (pairTp rows (ious.getD i 0) (scores.getD j 0)) ∧
    flagMask (classify rows ious scores) flagMisclf i j rows.length = rows.map (pairMisclf rows (ious.getD i 0) (scores.getD j 0)) ∧
    flagMask (classify rows ious scores) flagFp i j rows.length = rows.map (pairFp rows (ious.getD i 0) (scores.getD j 0)) ∧
    flagMask (classify rows ious scores) flagFn i j rows.length = rows.map (pairFn rows (ious.getD i 0) (scores.getD j 0)) := by
  unfold flagMask
  simp only [classify_eq rows ious scores i j _ hi hj]
  unfold flagsOf
  refine ⟨?_, ?_, ?_, ?_⟩
  all_goals
    refine Eq.trans ?_ (mask_eq rows _)
    apply List.map_congr_left
    intro k _
    generalize (rows.map (pairTp rows (ious.getD i 0) (scores.getD j 0))).getD k false = b1
    generalize (rows.map (pairMisclf rows (ious.getD i 0) (scores.getD j 0))).getD k false = b2
    generalize (rows.map (pairFp rows (ious.getD i 0) (scores.getD j 0))).getD k false = b3
    generalize (rows.map (pairFn rows (ious.getD i 0) (scores.getD j 0))).getD k false = b4
    revert b1 b2 b3 b4
    decide

theorem select_map (rows : List Row) (p : Row → Bool) : select rows (rows.map p) = rows.filter p := by
  unfold select
  induction rows with
  | nil => rfl
  | cons r rs ih =>
    rw [List.map_cons, List.zip_cons_cons, List.filter_cons, List.filter_cons]
    by_cases h : p r
    · simp only [h, if_true, List.map_cons]
      rw [ih]
    · simp only [h, Bool.false_eq_true, if_false]
      exact ih

/-! ## Assignments -/

theorem axisIndex_ok {n : Nat} {z : Int} (h : 0 ≤ z ∧ z < (n : Int)) : axisIndex n z = .ok z.toNat := by
  unfold axisIndex
  rw [if_pos h.1, if_pos h.2]

theorem assign1_ok {n : Nat} {labels : List Int} (h : ∀ l ∈ labels, 0 ≤ l ∧ l < (n : Int)) :
    ∃ f, assign1 n (fun _ => 0) labels = .ok f ∧ ∀ i : Nat, f i = labels.count (i : Int) := by
  have key : ∀ (u : List Int) (a : Nat → Nat), (∀ l ∈ u, l ∈ labels) →
      ∃ f, u.foldlM (fun a l => (axisIndex n l).bind (fun i => .ok (put a i (labels.count l)))) a = (.ok f : Except MErr (Nat → Nat)) ∧
        ∀ i : Nat, f i = if (i : Int) ∈ u then labels.count (i : Int) else a i := by
    intro u
    induction u with
    | nil => intro a _; exact ⟨a, rfl, by simp⟩
    | cons l u ih =>
      intro a hu
      have hl := h l (hu l (by simp))
      obtain ⟨f, hf, hv⟩ := ih (put a l.toNat (labels.count l)) (fun x hx => hu x (by simp [hx]))
      refine ⟨f, ?_, ?_⟩
      · rw [List.foldlM_cons, axisIndex_ok hl]
        exact hf
      · intro i
        rw [hv i]
        unfold put
        by_cases hi : (i : Int) = l
        · subst hi
          simp
        · have : i ≠ l.toNat := by omega
          simp [hi, this]
  obtain ⟨f, hf, hv⟩ := key (unique labels) (fun _ => 0) (fun l hl => mem_unique.1 hl)
  refine ⟨f, hf, ?_⟩
  intro i
  rw [hv i]
  split
  · rfl
  · rename_i hi
    rw [mem_unique] at hi
    exact (List.count_eq_zero.2 hi).symm

theorem assign2_ok {n : Nat} {labels : List (Int × Int)} (h : ∀ l ∈ labels, (0 ≤ l.1 ∧ l.1 < (n : Int)) ∧ (0 ≤ l.2 ∧ l.2 < (n : Int))) :
    ∃ f, assign2 n (fun _ _ => 0) labels = .ok f ∧ ∀ g p : Nat, f g p = labels.count ((g : Int), (p : Int)) := by
  have key : ∀ (u : List (Int × Int)) (a : Nat → Nat → Nat), (∀ l ∈ u, l ∈ labels) →
      ∃ f, u.foldlM (fun a l => (axisIndex n l.1).bind (fun g => (axisIndex n l.2).bind (fun p =>
          .ok (put a g (put (a g) p (labels.count l)))))) a = (.ok f : Except MErr (Nat → Nat → Nat)) ∧
        ∀ g p : Nat, f g p = if ((g : Int), (p : Int)) ∈ u then labels.count ((g : Int), (p : Int)) else a g p := by
    intro u
    induction u with
    | nil => intro a _; exact ⟨a, rfl, by simp⟩
    | cons l u ih =>
      intro a hu
      have hl := h l (hu l (by simp))
      obtain ⟨f, hf, hv⟩ := ih (put a l.1.toNat (put (a l.1.toNat) l.2.toNat (labels.count l))) (fun x hx => hu x (by simp [hx]))
      refine ⟨f, ?_, ?_⟩
      · rw [List.foldlM_cons, axisIndex_ok hl.1, axisIndex_ok hl.2]
        exact hf
      · intro g p
        rw [hv g p]
        unfold put
        by_cases hi : ((g : Int), (p : Int)) = l
        · subst hi
          simp
        · have hmem : ((g : Int), (p : Int)) ∈ l :: u ↔ ((g : Int), (p : Int)) ∈ u := by simp [hi]
          simp only [hmem]
          congr 1
          by_cases hg : g = l.1.toNat
          · have hp : p ≠ l.2.toNat := by
              intro hp
              apply hi
              ext
              · dsimp only; omega
              · dsimp only; omega
            rw [if_pos hg]
            rw [if_neg hp, hg]
          · rw [if_neg hg]
  obtain ⟨f, hf, hv⟩ := key (unique labels) (fun _ _ => 0) (fun l hl => mem_unique.1 hl)
  refine ⟨f, hf, ?_⟩
  intro g p
  rw [hv g p]
  split
  · rfl
  · rename_i hi
    rw [mem_unique] at hi
    exact (List.count_eq_zero.2 hi).symm

/-! ## One table -/

theorem thresholded_exists {rows : List Row} (hid : ∀ r ∈ rows, RowIds r) {t s : Rat} {r : Row} (hr : r ∈ rows)
    (h : thresholded rows t s r = true) : 0 ≤ r.gt ∧ 0 ≤ r.pd := by
  unfold thresholded at h
  rw [Bool.and_eq_true, Bool.and_eq_true] at h
  obtain ⟨h1, h2⟩ := keptPairs_ok hid _ ((mem_keptPairs _ _ _).2 ((C30_matched hid hr).1 h.1.1))
  exact ⟨h1.1, h2.1⟩

theorem count_keys {l : List Row} {f : Row → List Int} {α : Type} [BEq α] [LawfulBEq α] (g : List Int → α) (v : α) (q : List Int → Bool)
    (h : ∀ r ∈ l, (q (f r) = true ↔ g (f r) = v)) :
    ((unique (l.map f)).map g).count v = ((unique (l.map f)).filter q).length := by
  rw [List.count, List.countP_map, List.countP_eq_length_filter]
  congr 1
  apply List.filter_congr
  intro k hk
  obtain ⟨r, hr, rfl⟩ := List.mem_map.1 (mem_unique.1 hk)
  rw [Bool.eq_iff_iff, h r hr]
  simp

/-- The body of the loops succeeds on zero slices and writes the counts of its pair of thresholds. -/
theorem cmBody_ok {rows : List Row} (hid : ∀ r ∈ rows, RowIds r) {n : Nat} (hl : LabelsBelow n rows) {ious scores : List Rat} {i j : Nat}
    (hi : i < ious.length) (hj : j < scores.length) {a : CmArr} (ha : (∀ g p, a.cm i j g p = 0) ∧ (∀ l, a.gt i j l = 0) ∧ (∀ l, a.pd i j l = 0)) :
    ∃ b, cmBody rows (classify rows ious scores) n i a j = .ok b ∧
      (∀ i' j', (i' = i ∧ j' = j →
          (∀ g p : Nat, b.cm i' j' g p = cmCell rows (ious.getD i 0) (scores.getD j 0) (g : Int) (p : Int)) ∧
          (∀ l : Nat, b.gt i' j' l = unmatchedGt rows (ious.getD i 0) (scores.getD j 0) (l : Int)) ∧
          (∀ l : Nat, b.pd i' j' l = unmatchedPd rows (ious.getD i 0) (scores.getD j 0) (l : Int))) ∧
        (¬ (i' = i ∧ j' = j) → b.cm i' j' = a.cm i' j' ∧ b.gt i' j' = a.gt i' j' ∧ b.pd i' j' = a.pd i' j')) := by
  obtain ⟨m1, m2, m3, m4⟩ := flagMask_eq rows ious scores i j hi hj
  set t := ious.getD i 0 with ht
  set s := scores.getD j 0 with hs
  have z1 : a.cm i j = fun _ _ => 0 := by funext g p; exact ha.1 g p
  have z2 : a.gt i j = fun _ => 0 := by funext g; exact ha.2.1 g
  have z3 : a.pd i j = fun _ => 0 := by funext g; exact ha.2.2 g
  have hmatch : List.zipWith (· || ·) (rows.map (pairTp rows t s)) (rows.map (pairMisclf rows t s))
      = rows.map (fun r => pairTp rows t s r || pairMisclf rows t s r) := by
    rw [List.zipWith_map, List.zipWith_self]
  unfold cmBody
  dsimp only
  rw [m1, m2, m3, m4, hmatch, select_map, select_map, select_map, z1, z2, z3]
  obtain ⟨cm, hcm, vcm⟩ := assign2_ok (n := n) (labels := (unique ((rows.filter (fun r => pairTp rows t s r || pairMisclf rows t s r)).map
      (fun r => [r.datum, r.gt, r.pd, r.gl, r.pl]))).map (fun k => (k.getD 3 0, k.getD 4 0))) (by
    intro l hlm
    obtain ⟨k, hk, rfl⟩ := List.mem_map.1 hlm
    obtain ⟨r, hr, rfl⟩ := List.mem_map.1 (mem_unique.1 hk)
    obtain ⟨hr1, hr2⟩ := List.mem_filter.1 hr
    have := congrFun (class_thresholded rows t s) r
    rw [this] at hr2
    obtain ⟨e1, e2⟩ := thresholded_exists hid hr1 hr2
    exact ⟨(hl r hr1).1 e1, (hl r hr1).2 e2⟩)
  obtain ⟨gt, hgt, vgt⟩ := assign1_ok (n := n) (labels := (unique ((rows.filter (pairFn rows t s)).map
      (fun r => [r.datum, r.gt, r.gl]))).map (fun k => k.getD 2 0)) (by
    intro l hlm
    obtain ⟨k, hk, rfl⟩ := List.mem_map.1 hlm
    obtain ⟨r, hr, rfl⟩ := List.mem_map.1 (mem_unique.1 hk)
    obtain ⟨hr1, hr2⟩ := List.mem_filter.1 hr
    unfold pairFn at hr2
    rw [Bool.and_eq_true, decide_eq_true_eq] at hr2
    exact (hl r hr1).1 hr2.2)
  obtain ⟨pd, hpd, vpd⟩ := assign1_ok (n := n) (labels := (unique ((rows.filter (pairFp rows t s)).map
      (fun r => [r.datum, r.pd, r.pl]))).map (fun k => k.getD 2 0)) (by
    intro l hlm
    obtain ⟨k, hk, rfl⟩ := List.mem_map.1 hlm
    obtain ⟨r, hr, rfl⟩ := List.mem_map.1 (mem_unique.1 hk)
    obtain ⟨hr1, hr2⟩ := List.mem_filter.1 hr
    unfold pairFp at hr2
    rw [Bool.and_eq_true, Bool.and_eq_true, decide_eq_true_eq] at hr2
    exact (hl r hr1).2 hr2.1.2)
  rw [hcm, hgt, hpd]
  refine ⟨_, rfl, ?_⟩
  intro i' j'
  constructor
  · rintro ⟨rfl, rfl⟩
    refine ⟨?_, ?_, ?_⟩
    · intro g p
      simp only [put, if_true]
      rw [vcm g p]
      unfold cmCell
      apply count_keys
      intro r _
      simp
    · intro l
      simp only [put, if_true]
      rw [vgt l]
      unfold unmatchedGt
      apply count_keys
      intro r _
      simp
    · intro l
      simp only [put, if_true]
      rw [vpd l]
      unfold unmatchedPd
      apply count_keys
      intro r _
      simp
  · intro hne
    by_cases hii : i' = i
    · subst hii
      have : j' ≠ j := fun h => hne ⟨rfl, h⟩
      simp only [put, if_true, this, if_false, and_self]
    · simp only [put, hii, if_false, and_self]

/-- The counts of one table at the thresholds that were done so far. -/
def CmMatch (rows : List Row) (ious scores : List Rat) (a : CmArr) (done : Nat → Nat → Prop) : Prop :=
  ∀ i j, (done i j →
      (∀ g p : Nat, a.cm i j g p = cmCell rows (ious.getD i 0) (scores.getD j 0) (g : Int) (p : Int)) ∧
      (∀ l : Nat, a.gt i j l = unmatchedGt rows (ious.getD i 0) (scores.getD j 0) (l : Int)) ∧
      (∀ l : Nat, a.pd i j l = unmatchedPd rows (ious.getD i 0) (scores.getD j 0) (l : Int))) ∧
    (¬ done i j → (∀ g p, a.cm i j g p = 0) ∧ (∀ l, a.gt i j l = 0) ∧ (∀ l, a.pd i j l = 0))

theorem scoreLoopCm {rows : List Row} (hid : ∀ r ∈ rows, RowIds r) {n : Nat} (hl : LabelsBelow n rows) {ious scores : List Rat} {i : Nat}
    (hi : i < ious.length) {a : CmArr} (ha : CmMatch rows ious scores a (fun i' j' => i' < i ∧ j' < scores.length)) (m : Nat) (hm : m ≤ scores.length) :
    ∃ b, (List.range m).foldlM (cmBody rows (classify rows ious scores) n i) a = .ok b ∧
      CmMatch rows ious scores b (fun i' j' => (i' < i ∧ j' < scores.length) ∨ (i' = i ∧ j' < m)) := by
  induction m with
  | zero =>
    refine ⟨a, rfl, ?_⟩
    intro i' j'
    refine ⟨fun h => (ha i' j').1 (by rcases h with h | h; exact h; omega), fun h => (ha i' j').2 (fun hh => h (Or.inl hh))⟩
  | succ m ih =>
    obtain ⟨b, hb, vb⟩ := ih (by omega)
    obtain ⟨c, hc, vc⟩ := cmBody_ok hid hl (ious := ious) (scores := scores) hi (j := m) (by omega) ((vb i m).2 (by omega))
    refine ⟨c, ?_, ?_⟩
    · rw [List.range_succ, List.foldlM_append, hb]
      change ([m].foldlM (cmBody rows (classify rows ious scores) n i) b) = _
      rw [List.foldlM_cons, hc]
      rfl
    · intro i' j'
      by_cases h : i' = i ∧ j' = m
      · refine ⟨fun _ => ?_, fun hh => absurd (Or.inr ⟨h.1, by omega⟩) hh⟩
        have := (vc i' j').1 h
        rw [h.1, h.2]
        rw [h.1, h.2] at this
        exact this
      · obtain ⟨e1, e2, e3⟩ := (vc i' j').2 h
        rw [e1, e2, e3]
        constructor
        · intro hh
          apply (vb i' j').1
          rcases hh with hh | hh
          · exact Or.inl hh
          · right; refine ⟨hh.1, ?_⟩
            have : j' ≠ m := fun e => h ⟨hh.1, e⟩
            omega
        · intro hh
          apply (vb i' j').2
          intro h2
          apply hh
          rcases h2 with h2 | h2
          · exact Or.inl h2
          · exact Or.inr ⟨h2.1, by omega⟩

/-- All thresholds of one table. -/
theorem tableCm_ok {rows : List Row} (hid : ∀ r ∈ rows, RowIds r) {n : Nat} (hl : LabelsBelow n rows) (ious scores : List Rat) :
    ∃ b, tableCm rows ious scores n = .ok b ∧ CmMatch rows ious scores b (fun i j => i < ious.length ∧ j < scores.length) := by
  have key : ∀ m, m ≤ ious.length → ∃ b, (List.range m).foldlM (fun a i => (List.range scores.length).foldlM
      (cmBody rows (classify rows ious scores) n i) a) CmArr.zero = (.ok b : Except MErr CmArr) ∧
      CmMatch rows ious scores b (fun i j => i < m ∧ j < scores.length) := by
    intro m
    induction m with
    | zero =>
      intro _
      refine ⟨CmArr.zero, rfl, ?_⟩
      intro i j
      exact ⟨fun h => by omega, fun _ => ⟨fun _ _ => rfl, fun _ => rfl, fun _ => rfl⟩⟩
    | succ m ih =>
      intro hm
      obtain ⟨b, hb, vb⟩ := ih (by omega)
      obtain ⟨c, hc, vc⟩ := scoreLoopCm hid hl (i := m) (by omega) vb scores.length (le_refl _)
      refine ⟨c, ?_, ?_⟩
      · rw [List.range_succ, List.foldlM_append, hb]
        change ([m].foldlM (fun a i => (List.range scores.length).foldlM (cmBody rows (classify rows ious scores) n i) a) b) = _
        rw [List.foldlM_cons, hc]
        rfl
      · intro i j
        have : (i < m + 1 ∧ j < scores.length) ↔ ((i < m ∧ j < scores.length) ∨ (i = m ∧ j < scores.length)) := by omega
        exact ⟨fun h => (vc i j).1 (this.1 h), fun h => (vc i j).2 (fun hh => h (this.2 hh))⟩
  exact key ious.length (le_refl _)

/-- All tables. -/
theorem accumulateCm_ok {tables : List (List Row)} (hid : ∀ r ∈ tables.flatten, RowIds r) {n : Nat} (hl : LabelsBelow n tables.flatten)
    (ious scores : List Rat) : ∃ a, accumulateCm n ious scores tables = .ok a ∧ ∀ i, i < ious.length → ∀ j, j < scores.length →
      (∀ g p : Nat, a.cm i j g p = cmTotal tables (ious.getD i 0) (scores.getD j 0) (g : Int) (p : Int)) ∧
      (∀ l : Nat, a.gt i j l = unmatchedGtTotal tables (ious.getD i 0) (scores.getD j 0) (l : Int)) ∧
      (∀ l : Nat, a.pd i j l = unmatchedPdTotal tables (ious.getD i 0) (scores.getD j 0) (l : Int)) := by
  have key : ∀ (ts : List (List Row)) (a0 : CmArr), (∀ r ∈ ts.flatten, RowIds r) → LabelsBelow n ts.flatten →
      ∃ a, ts.foldlM (fun a rows => if rows.isEmpty then .ok a else
        (tableCm rows ious scores n).bind (fun b => .ok ⟨fun i j g p => a.cm i j g p + b.cm i j g p,
          fun i j l => a.gt i j l + b.gt i j l, fun i j l => a.pd i j l + b.pd i j l⟩)) a0 = (.ok a : Except MErr CmArr) ∧
        ∀ i, i < ious.length → ∀ j, j < scores.length →
        (∀ g p : Nat, a.cm i j g p = a0.cm i j g p + cmTotal ts (ious.getD i 0) (scores.getD j 0) (g : Int) (p : Int)) ∧
        (∀ l : Nat, a.gt i j l = a0.gt i j l + unmatchedGtTotal ts (ious.getD i 0) (scores.getD j 0) (l : Int)) ∧
        (∀ l : Nat, a.pd i j l = a0.pd i j l + unmatchedPdTotal ts (ious.getD i 0) (scores.getD j 0) (l : Int)) := by
    intro ts
    induction ts with
    | nil =>
      intro a0 _ _
      exact ⟨a0, rfl, fun i _ j _ => ⟨fun _ _ => rfl, fun _ => rfl, fun _ => rfl⟩⟩
    | cons rows ts ih =>
      intro a0 h1 h2
      rw [List.flatten_cons] at h1 h2
      have h1a : ∀ r ∈ rows, RowIds r := fun r hr => h1 r (List.mem_append_left _ hr)
      have h1b : ∀ r ∈ ts.flatten, RowIds r := fun r hr => h1 r (List.mem_append_right _ hr)
      have h2a : LabelsBelow n rows := fun r hr => h2 r (List.mem_append_left _ hr)
      have h2b : LabelsBelow n ts.flatten := fun r hr => h2 r (List.mem_append_right _ hr)
      rw [List.foldlM_cons]
      by_cases he : rows = []
      · subst he
        obtain ⟨a, ha, va⟩ := ih a0 h1b h2b
        refine ⟨a, ha, ?_⟩
        intro i hi j hj
        obtain ⟨v1, v2, v3⟩ := va i hi j hj
        refine ⟨?_, ?_, ?_⟩
        · intro g p; rw [v1]; simp [cmTotal, cmCell, unique]
        · intro l; rw [v2]; simp [unmatchedGtTotal, unmatchedGt, unique]
        · intro l; rw [v3]; simp [unmatchedPdTotal, unmatchedPd, unique]
      · obtain ⟨b, hb, vb⟩ := tableCm_ok h1a h2a ious scores
        obtain ⟨a, ha, va⟩ := ih ⟨fun i j g p => a0.cm i j g p + b.cm i j g p,
          fun i j l => a0.gt i j l + b.gt i j l, fun i j l => a0.pd i j l + b.pd i j l⟩ h1b h2b
        refine ⟨a, ?_, ?_⟩
        · rw [if_neg (by simpa using he), hb]
          exact ha
        · intro i hi j hj
          obtain ⟨v1, v2, v3⟩ := va i hi j hj
          obtain ⟨w1, w2, w3⟩ := (vb i j).1 ⟨hi, hj⟩
          refine ⟨?_, ?_, ?_⟩
          · intro g p; rw [v1]; dsimp only; rw [w1]; simp [cmTotal, Nat.add_assoc]
          · intro l; rw [v2]; dsimp only; rw [w2]; simp [unmatchedGtTotal, Nat.add_assoc]
          · intro l; rw [v3]; dsimp only; rw [w3]; simp [unmatchedPdTotal, Nat.add_assoc]
  obtain ⟨a, ha, va⟩ := key tables CmArr.zero hid hl
  refine ⟨a, ha, ?_⟩
  intro i hi j hj
  obtain ⟨v1, v2, v3⟩ := va i hi j hj
  refine ⟨?_, ?_, ?_⟩
  · intro g p; rw [v1]; simp [CmArr.zero]
  · intro l; rw [v2]; simp [CmArr.zero]
  · intro l; rw [v3]; simp [CmArr.zero]

/-! ## Dictionaries -/

theorem dput_new {α β : Type} [DecidableEq α] {d : List (α × β)} {k : α} (h : k ∉ d.map Prod.fst) (v : β) : dput d k v = d ++ [(k, v)] := by
  induction d with
  | nil => rfl
  | cons x d ih =>
    obtain ⟨a, b⟩ := x
    rw [List.map_cons, List.mem_cons, not_or] at h
    simp only [dput]
    rw [if_neg (fun e => h.1 e.symm), ih h.2]
    rfl

theorem dput_last {α β : Type} [DecidableEq α] {d : List (α × β)} {k : α} (h : k ∉ d.map Prod.fst) (v w : β) :
    dput (d ++ [(k, v)]) k w = d ++ [(k, w)] := by
  induction d with
  | nil => simp [dput]
  | cons x d ih =>
    obtain ⟨a, b⟩ := x
    rw [List.map_cons, List.mem_cons, not_or] at h
    rw [List.cons_append]
    simp only [dput]
    rw [if_neg (fun e => h.1 e.symm), ih h.2]
    rfl

theorem lookup_last {β : Type} {d : List (String × β)} {k : String} (h : k ∉ d.map Prod.fst) (v : β) : (d ++ [(k, v)]).lookup k = some v := by
  induction d with
  | nil => simp
  | cons x d ih =>
    rw [List.map_cons, List.mem_cons, not_or] at h
    rw [List.cons_append, List.lookup_cons]
    have : (k == x.1) = false := by simpa using h.1
    rw [this]
    exact ih h.2

/-- The inner loop writes the row of its label at the end of the dictionary. -/
theorem cellLoop (a : Nat → Nat → Nat) (lb : Nat × String) {d : List (String × List (String × Nat))} (h : lb.2 ∉ d.map Prod.fst)
    (qs : List (Nat × String)) (hq : qs ≠ []) (hnd : (qs.map Prod.snd).Nodup) :
    qs.foldl (cellBody a lb) d = d ++ [(lb.2, qs.map (fun q => (q.2, a lb.1 q.1)))] := by
  have first : ∀ q, cellBody a lb d q = d ++ [(lb.2, [(q.2, a lb.1 q.1)])] := by
    intro q
    unfold cellBody
    have hc : (d.map Prod.fst).contains lb.2 = false := by simpa using h
    dsimp only
    rw [hc]
    simp only [Bool.false_eq_true, if_false]
    rw [dput_new h, lookup_last h, dput_last h]
    rfl
  have step : ∀ (row : List (String × Nat)) (q : Nat × String), q.2 ∉ row.map Prod.fst →
      cellBody a lb (d ++ [(lb.2, row)]) q = d ++ [(lb.2, row ++ [(q.2, a lb.1 q.1)])] := by
    intro row q hn
    unfold cellBody
    have hc : ((d ++ [(lb.2, row)]).map Prod.fst).contains lb.2 = true := by simp
    dsimp only
    rw [hc]
    simp only [if_true]
    rw [lookup_last h, dput_last h, Option.getD_some, dput_new hn]
  have rest : ∀ (qs : List (Nat × String)) (row : List (String × Nat)), (row.map Prod.fst ++ qs.map Prod.snd).Nodup →
      qs.foldl (cellBody a lb) (d ++ [(lb.2, row)]) = d ++ [(lb.2, row ++ qs.map (fun q => (q.2, a lb.1 q.1)))] := by
    intro qs
    induction qs with
    | nil => intro row _; simp
    | cons q qs ih =>
      intro row hn
      have hq : q.2 ∉ row.map Prod.fst := by
        intro hm
        rw [List.nodup_append] at hn
        exact hn.2.2 q.2 hm q.2 (by simp) rfl
      rw [List.foldl_cons, step row q hq, ih]
      · simp
      · simpa using hn
  cases qs with
  | nil => exact absurd rfl hq
  | cons q qs =>
    rw [List.foldl_cons, first q, rest qs [(q.2, a lb.1 q.1)] (by simpa using hnd)]
    rfl

theorem labelLoopCm (all : List (Nat × String)) (hall : all ≠ []) (hnd : (all.map Prod.snd).Nodup) (cm : Nat → Nat → Nat) (gt pd : Nat → Nat)
    (t s : Rat) : all.foldl (labelCells all cm gt pd) ⟨[], [], [], t, s⟩
      = ⟨all.map (fun lb => (lb.2, all.map (fun q => (q.2, cm lb.1 q.1)))), all.map (fun lb => (lb.2, gt lb.1)),
        all.map (fun lb => (lb.2, pd lb.1)), t, s⟩ := by
  have key : ∀ (ls done : List (Nat × String)), (done.map Prod.snd ++ ls.map Prod.snd).Nodup →
      ls.foldl (labelCells all cm gt pd) ⟨done.map (fun lb => (lb.2, all.map (fun q => (q.2, cm lb.1 q.1)))),
        done.map (fun lb => (lb.2, gt lb.1)), done.map (fun lb => (lb.2, pd lb.1)), t, s⟩
      = ⟨(done ++ ls).map (fun lb => (lb.2, all.map (fun q => (q.2, cm lb.1 q.1)))), (done ++ ls).map (fun lb => (lb.2, gt lb.1)),
        (done ++ ls).map (fun lb => (lb.2, pd lb.1)), t, s⟩ := by
    intro ls
    induction ls with
    | nil => intro done _; simp
    | cons lb ls ih =>
      intro done hn
      have hm : lb.2 ∉ done.map Prod.snd := by
        intro hm
        rw [List.nodup_append] at hn
        exact hn.2.2 lb.2 hm lb.2 (by simp) rfl
      rw [List.foldl_cons]
      have : labelCells all cm gt pd ⟨done.map (fun lb => (lb.2, all.map (fun q => (q.2, cm lb.1 q.1)))),
          done.map (fun lb => (lb.2, gt lb.1)), done.map (fun lb => (lb.2, pd lb.1)), t, s⟩ lb
          = ⟨(done ++ [lb]).map (fun lb => (lb.2, all.map (fun q => (q.2, cm lb.1 q.1)))), (done ++ [lb]).map (fun lb => (lb.2, gt lb.1)),
            (done ++ [lb]).map (fun lb => (lb.2, pd lb.1)), t, s⟩ := by
        unfold labelCells
        dsimp only
        rw [dput_new (by simpa [List.map_map] using hm), dput_new (by simpa [List.map_map] using hm),
          cellLoop cm lb (by simpa [List.map_map] using hm) all hall hnd]
        simp
      rw [this, ih (done ++ [lb]) (by simpa using hn)]
      simp
  exact key all [] (by simpa using hnd)

/-! ## C62 -/

/-- The metric that is expected for one pair of thresholds. -/
def expectedCm (tables : List (List Row)) (labels : List (Nat × String)) (t s : Rat) : CmMetric where
  cm := labels.map (fun lb => (lb.2, labels.map (fun q => (q.2, cmTotal tables t s (lb.1 : Int) (q.1 : Int)))))
  gt := labels.map (fun lb => (lb.2, unmatchedGtTotal tables t s (lb.1 : Int)))
  pd := labels.map (fun lb => (lb.2, unmatchedPdTotal tables t s (lb.1 : Int)))
  iou := t
  score := s

/-- **C62 (report).** For every cache and all lists of thresholds, also with several labels per prediction:
`compute_confusion_matrix` succeeds and returns one metric per pair of thresholds, in the order of the loops; each has the
counts of this pair alone, for each pair of labels one cell. -/
theorem C62_report {tables : List (List Row)} (hid : ∀ r ∈ tables.flatten, RowIds r) {labels : List (Nat × String)} (hne : labels ≠ [])
    (hk : ∀ lb ∈ labels, lb.1 < labels.length) (hnd : (labels.map Prod.snd).Nodup) (hl : LabelsBelow labels.length tables.flatten)
    {ious scores : List Rat} (hi : ious ≠ []) (hs : scores ≠ []) :
    computeConfusionMatrix labels tables ious scores = .ok (ious.flatMap (fun t => scores.map (fun s => expectedCm tables labels t s))) := by
  obtain ⟨a, ha, va⟩ := accumulateCm_ok hid hl ious scores
  unfold computeConfusionMatrix
  rw [if_neg (by simpa using hi), if_neg (by simpa using hs), ha]
  change (if labels.any (fun lb => decide (lb.1 ≥ labels.length)) then Except.error MErr.indexError else _) = _
  rw [if_neg (by
    rw [Bool.not_eq_true, List.any_eq_false]
    intro lb hlb
    have := hk lb hlb
    simp only [ge_iff_le, decide_eq_true_eq]
    omega)]
  congr 1
  unfold unpackMatrices
  rw [List.flatMap_def]
  congr 1
  apply enum_eq ious 0
  intro i hi'
  apply enum_eq scores 0
  intro j hj
  obtain ⟨v1, v2, v3⟩ := va i hi' j hj
  rw [labelLoopCm labels hne hnd]
  unfold expectedCm
  simp only [v1, v2, v3]

/-- **C62 (one pair at a time).** The metrics of a call with lists are those of calls with single thresholds. -/
theorem C62_single {tables : List (List Row)} (hid : ∀ r ∈ tables.flatten, RowIds r) {labels : List (Nat × String)} (hne : labels ≠ [])
    (hk : ∀ lb ∈ labels, lb.1 < labels.length) (hnd : (labels.map Prod.snd).Nodup) (hl : LabelsBelow labels.length tables.flatten)
    {ious scores : List Rat} {t s : Rat} (ht : t ∈ ious) (hs : s ∈ scores) :
    ∃ R m, computeConfusionMatrix labels tables ious scores = .ok R ∧ computeConfusionMatrix labels tables [t] [s] = .ok [m] ∧
      ∀ x, (x ∈ R ∧ x.iou = t ∧ x.score = s) ↔ x = m := by
  refine ⟨_, _, C62_report hid hne hk hnd hl (List.ne_nil_of_mem ht) (List.ne_nil_of_mem hs),
    C62_report hid hne hk hnd hl (List.cons_ne_nil t []) (List.cons_ne_nil s []), ?_⟩
  intro x
  rw [List.mem_flatMap]
  constructor
  · rintro ⟨⟨t', ht', hx⟩, h1, h2⟩
    obtain ⟨s', hs', rfl⟩ := List.mem_map.1 hx
    change t' = t at h1
    change s' = s at h2
    rw [h1, h2]
  · rintro rfl
    exact ⟨⟨t, ht, List.mem_map.2 ⟨s, hs, rfl⟩⟩, rfl, rfl⟩

theorem rowIds_of_holding {calls : List History} {keep : Nat → Bool} {tables : List (List Row)} (h : Holding calls keep tables)
    (hH : HistoryOk calls.flatten) (hS : SizesOk (Loader.init.addAll calls)) : ∀ r ∈ tables.flatten, RowIds r := by
  intro r hr
  have i := linv_addAll calls
  have hg := hS.gts
  have hp := hS.pds
  have hd := hS.datums
  rw [i.gts] at hg
  rw [i.pds] at hp
  rw [i.datums] at hd
  obtain ⟨k, x, f, hkp, hk, hf, rfl⟩ := (h.rows r).1 hr
  obtain ⟨o1, o2⟩ := offset_lt calls.flatten hk
  refine ⟨?_, ?_, ?_⟩
  · rcases hf.gt (hH.gtLabel x (List.mem_of_getElem? hk)) with ⟨e1, _⟩ | ⟨g, ga, hg', e1, _⟩
    · exact Or.inl e1
    · right
      have := o1 g (getElem?_lt hg')
      unfold IdOk
      omega
  · rcases hf.pd with ⟨e1, _⟩ | ⟨p, pa, l, hpa, _, e1, _⟩
    · exact Or.inl e1
    · right
      have := o2 p (getElem?_lt hpa)
      unfold IdOk
      omega
  · have := getElem?_lt hk
    rw [hf.datum]
    unfold IdOk
    omega

/-- **C62 (end to end).** For every sequence of `add_*` calls, every division of the rows into tables and all thresholds: the
call succeeds with one metric per pair of thresholds, over the labels that `extract_labels` reads from the tables. -/
theorem C62_end_to_end (calls : List History) (hv : ∀ x ∈ calls.flatten, DetOk x.1) (hH : HistoryOk calls.flatten)
    (hS : SizesOk (Loader.init.addAll calls)) (hne : (Loader.init.addAll calls).labels ≠ [])
    {ftables : List (List FRow)} (hst : Stored (Loader.init.addAll calls).rows ftables)
    {ious scores : List Rat} (hi : ious ≠ []) (hs : scores ≠ []) :
    let labels := (extractLabels (ftables.map (fun t => t.map labelCols))).map (fun x => (x.1.toNat, x.2))
    computeConfusionMatrix labels (rowsIn ftables) ious scores
      = .ok (ious.flatMap (fun t => scores.map (fun s => expectedCm (rowsIn ftables) labels t s))) := by
  intro labels
  obtain ⟨d1, d2⟩ := C50_detection calls hv hst
  obtain ⟨k1, k2⟩ := dict_keys d1 d2
  have hlen : labels.length = (Loader.init.addAll calls).labels.length := by
    rw [← k2]
    simp [labels]
  have hhold := holding_of_stored hst
  have hkeys : labels.map Prod.fst = (extractLabels (ftables.map (fun t => t.map labelCols))).map (fun x => x.1.toNat) := by
    simp [labels]
  have hlab : ∀ lb ∈ labels, (Loader.init.addAll calls).labels[lb.1]? = some lb.2 := by
    intro lb hlb
    obtain ⟨x, hx, rfl⟩ := List.mem_map.1 hlb
    refine ((d2 x.1 x.2).1 ?_).2
    rw [List.lookup_eq_some_iff]
    obtain ⟨l1, l2, he⟩ := List.append_of_mem hx
    refine ⟨l1, l2, he, ?_⟩
    intro p hp
    rw [he, List.map_append, List.nodup_append] at d1
    have := d1.2.2 p.1 (List.mem_map_of_mem (f := Prod.fst) hp) x.1 (by simp)
    simpa using this.symm
  have hln := (C34_rows calls).1
  apply C62_report (rowIds_of_holding hhold hH hS)
  · intro he
    rw [he] at hlen
    exact hne (List.length_eq_zero_iff.1 hlen.symm)
  · intro lb hlb
    rw [hlen]
    exact getElem?_lt (hlab lb hlb)
  · have hkn : (labels.map Prod.fst).Nodup := by
      rw [hkeys]
      exact k1.nodup_iff.2 List.nodup_range
    have hinj : ∀ x ∈ labels, ∀ y ∈ labels, x.2 = y.2 → x = y := by
      intro x hx y hy he
      have h1 := hlab x hx
      have h2 := hlab y hy
      rw [← he] at h2
      have hlt := getElem?_lt h1
      have hlt2 := getElem?_lt h2
      rw [List.getElem?_eq_getElem hlt] at h1
      rw [List.getElem?_eq_getElem hlt2] at h2
      have := (hln.getElem_inj_iff).1 ((Option.some.inj h1).trans (Option.some.inj h2).symm)
      exact Prod.ext this he
    exact List.Nodup.map_on hinj (List.Nodup.of_map _ hkn)
  · rw [hlen]
    exact labelsBelow_of_holding hhold
  · exact hi
  · exact hs

/-! ## Instances -/

example : computeConfusionMatrix [(1, "b"), (0, "a")] sampleTables [1 / 2, 7 / 10] [1 / 4, 1 / 2]
    = .ok ([1 / 2, 7 / 10].flatMap (fun t => [1 / 4, 1 / 2].map (fun s => expectedCm sampleTables [(1, "b"), (0, "a")] t s))) :=
  C62_report (by decide +kernel) (by simp) (by decide) (by decide) (by decide +kernel) (by simp) (by simp)

example : (computeConfusionMatrix [(1, "b"), (0, "a")] sampleTables [1 / 2] [1 / 4]).toOption
    = some [⟨[("b", [("b", 0), ("a", 0)]), ("a", [("b", 0), ("a", 2)])], [("b", 1), ("a", 0)], [("b", 1), ("a", 1)], 1 / 2, 1 / 4⟩] := by
  decide +kernel

end Verif.Detection
