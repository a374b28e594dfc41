import Verif.Detection.Pairs
import Verif.Detection.CountsProps

/-! # C30, C31, C32: greedy matching, packed membership, confusion matrix -/

namespace Verif.Detection

open Verif.Classification (unique)

/-! ## C31 -/

/-- An id that fits (`0 ≤ id < 2^31`). -/
def IdOk (x : Int) : Prop := 0 ≤ x ∧ x < 2 ^ 31

instance (x : Int) : Decidable (IdOk x) := by unfold IdOk; infer_instance

theorem packKey_toNat {a b : Nat} (ha : a < 2 ^ 31) (hb : b < 2 ^ 31) : (packKey a b).toNat = a * 2 ^ 32 + b := by
  unfold packKey
  have h1 : (BitVec.signExtend 64 (BitVec.ofInt 32 (b : Int))).toNat = b := by
    have hmsb : (BitVec.ofInt 32 (b : Int)).msb = false := by
      rw [BitVec.ofInt_natCast, BitVec.msb_eq_decide]
      simp
      omega
    rw [BitVec.signExtend_eq_setWidth_of_msb_false hmsb, BitVec.ofInt_natCast, BitVec.toNat_setWidth, BitVec.toNat_ofNat]
    simp
    omega
  have h2 : (BitVec.ofInt 64 (a : Int) <<< 32).toNat = a <<< 32 := by
    rw [BitVec.ofInt_natCast, BitVec.toNat_shiftLeft, BitVec.toNat_ofNat, Nat.mod_eq_of_lt (a := a) (by omega),
      Nat.mod_eq_of_lt]
    rw [Nat.shiftLeft_eq]
    omega
  rw [BitVec.toNat_or, h1, h2, ← Nat.shiftLeft_add_eq_or_of_lt (by omega), Nat.shiftLeft_eq]

theorem packKey_inj {a b c d : Int} (ha : IdOk a) (hb : IdOk b) (hc : IdOk c) (hd : IdOk d)
    (h : packKey a b = packKey c d) : a = c ∧ b = d := by
  obtain ⟨ha0, ha1⟩ := ha
  obtain ⟨hb0, hb1⟩ := hb
  obtain ⟨hc0, hc1⟩ := hc
  obtain ⟨hd0, hd1⟩ := hd
  lift a to Nat using ha0
  lift b to Nat using hb0
  lift c to Nat using hc0
  lift d to Nat using hd0
  have := congrArg BitVec.toNat h
  rw [packKey_toNat (by omega) (by omega), packKey_toNat (by omega) (by omega)] at this
  omega

/-- A row with a missing id (−1) has a key with the sign bit set. -/
theorem packKey_neg {a b : Int} (h : a = -1 ∨ b = -1) : (packKey a b).msb = true := by
  unfold packKey
  rw [BitVec.msb_or]
  rcases h with rfl | rfl
  · have : (BitVec.ofInt 64 (-1) <<< 32).msb = true := by decide
    rw [this, Bool.true_or]
  · have : (BitVec.signExtend 64 (BitVec.ofInt 32 (-1))).msb = true := by decide
    rw [this, Bool.or_true]

theorem packKey_pos {a b : Int} (ha : IdOk a) (hb : IdOk b) : (packKey a b).msb = false := by
  obtain ⟨ha0, ha1⟩ := ha
  obtain ⟨hb0, hb1⟩ := hb
  lift a to Nat using ha0
  lift b to Nat using hb0
  rw [BitVec.msb_eq_decide, packKey_toNat (by omega) (by omega)]
  simp
  omega

/-- An id of a table: an index or the placeholder −1. -/
def IdOrMissing (x : Int) : Prop := x = -1 ∨ IdOk x

instance (x : Int) : Decidable (IdOrMissing x) := by unfold IdOrMissing; infer_instance

/-- **C31.** The packed test is exact membership when the list has ids below 2^31: for a pair of such ids,
and also for pairs with missing ids, which are never members. -/
theorem C31_isin (x : Int × Int) (subset : List (Int × Int)) (hx : IdOrMissing x.1 ∧ IdOrMissing x.2)
    (hs : ∀ y ∈ subset, IdOk y.1 ∧ IdOk y.2) : isin x subset = true ↔ x ∈ subset := by
  unfold isin
  rw [decide_eq_true_eq, List.mem_map]
  constructor
  · rintro ⟨y, hy, he⟩
    obtain ⟨hy1, hy2⟩ := hs y hy
    have hpos := packKey_pos hy1 hy2
    have hx' : IdOk x.1 ∧ IdOk x.2 := by
      constructor
      · rcases hx.1 with h | h
        · rw [he, packKey_neg (Or.inl h)] at hpos
          exact absurd hpos (by simp)
        · exact h
      · rcases hx.2 with h | h
        · rw [he, packKey_neg (Or.inr h)] at hpos
          exact absurd hpos (by simp)
        · exact h
    obtain ⟨h1, h2⟩ := packKey_inj hy1 hy2 hx'.1 hx'.2 he
    have : y = x := Prod.ext h1 h2
    exact this ▸ hy
  · intro h
    exact ⟨x, h, rfl⟩

/-- **C31 (range is needed).** All pairs with a missing second id share one key, and an id of 2^32 is
confused with 0. -/
theorem C31_outside : packKey 5 (-1) = packKey 7 (-1) ∧ packKey 3 (2 ^ 32) = packKey 3 0 := by decide

example : ∃ (x : Int × Int) (subset : List (Int × Int)), (IdOrMissing x.1 ∧ IdOrMissing x.2) ∧ (∀ y ∈ subset, IdOk y.1 ∧ IdOk y.2) ∧
    isin x subset = true := ⟨(2147483647, 3), [(0, 1), (2147483647, 3)], by decide⟩

/-! ## C30 -/

/-- `mask` is the greedy choice: a candidate (both sides present) is chosen iff no earlier chosen row uses
its ground truth or its prediction. -/
def GreedyChoice (rows : List Row) (mask : List Bool) : Prop :=
  mask.length = rows.length ∧ ∀ i : Nat, ∀ h : i < rows.length,
    (mask[i]? = some true ↔ (0 ≤ rows[i].gt ∧ 0 ≤ rows[i].pd) ∧
      ∀ j : Nat, ∀ hj : j < i, mask[j]? = some true → rows[j].gt ≠ rows[i].gt ∧ rows[j].pd ≠ rows[i].pd)

theorem greedy_length (ug up : List Int) (rows : List Row) : (greedy ug up rows).length = rows.length := by
  induction rows generalizing ug up with
  | nil => rfl
  | cons r rs ih =>
    unfold greedy
    split
    · rw [List.length_cons, ih, List.length_cons]
    · rw [List.length_cons, ih, List.length_cons]

theorem greedy_spec (ug up : List Int) (rows : List Row) (i : Nat) (h : i < rows.length) :
    (greedy ug up rows)[i]? = some true ↔ (0 ≤ rows[i].gt ∧ 0 ≤ rows[i].pd) ∧ (rows[i].gt ∉ ug ∧ rows[i].pd ∉ up) ∧
      ∀ j : Nat, ∀ hj : j < i, (greedy ug up rows)[j]? = some true → rows[j].gt ≠ rows[i].gt ∧ rows[j].pd ≠ rows[i].pd := by
  induction rows generalizing ug up i with
  | nil => simp at h
  | cons r rs ih =>
    unfold greedy
    have hcond : (!(decide (r.gt < 0) || decide (r.pd < 0) || decide (r.gt ∈ ug) || decide (r.pd ∈ up))) = true ↔
        (0 ≤ r.gt ∧ 0 ≤ r.pd) ∧ r.gt ∉ ug ∧ r.pd ∉ up := by
      simp only [Bool.not_eq_true', Bool.or_eq_false_iff, decide_eq_false_iff_not, not_lt]
      tauto
    split
    · rename_i hc
      rw [hcond] at hc
      cases i with
      | zero =>
        simp only [List.getElem?_cons_zero, List.getElem_cons_zero, true_iff]
        exact ⟨hc.1, hc.2, fun j hj => absurd hj (by omega)⟩
      | succ i =>
        have h' : i < rs.length := by simpa using h
        rw [List.getElem?_cons_succ, ih (r.gt :: ug) (r.pd :: up) i h']
        simp only [List.getElem_cons_succ, List.mem_cons, not_or]
        constructor
        · rintro ⟨h1, ⟨⟨h2, h3⟩, h4, h5⟩, h6⟩
          refine ⟨h1, ⟨h3, h5⟩, ?_⟩
          intro j hj hjt
          cases j with
          | zero => exact ⟨fun h => h2 h.symm, fun h => h4 h.symm⟩
          | succ j => exact h6 j (by omega) hjt
        · rintro ⟨h1, ⟨h2, h3⟩, h4⟩
          have h0 := h4 0 (by omega) rfl
          refine ⟨h1, ⟨⟨fun h => h0.1 h.symm, h2⟩, fun h => h0.2 h.symm, h3⟩, ?_⟩
          intro j hj hjt
          exact h4 (j + 1) (by omega) hjt
    · rename_i hc
      rw [hcond] at hc
      cases i with
      | zero =>
        simp only [List.getElem?_cons_zero, List.getElem_cons_zero]
        constructor
        · intro h; simp at h
        · rintro ⟨h1, h2, _⟩
          exact absurd ⟨h1, h2⟩ hc
      | succ i =>
        have h' : i < rs.length := by simpa using h
        rw [List.getElem?_cons_succ, ih ug up i h']
        simp only [List.getElem_cons_succ]
        constructor
        · rintro ⟨h1, h2, h6⟩
          refine ⟨h1, h2, ?_⟩
          intro j hj hjt
          cases j with
          | zero => simp at hjt
          | succ j => exact h6 j (by omega) hjt
        · rintro ⟨h1, h2, h4⟩
          exact ⟨h1, h2, fun j hj hjt => h4 (j + 1) (by omega) hjt⟩

/-- **C30 (greedy).** The mask of the loop is the greedy choice in row order. -/
theorem C30_greedy (rows : List Row) : GreedyChoice rows (greedy [] [] rows) := by
  refine ⟨greedy_length _ _ _, ?_⟩
  intro i h
  rw [greedy_spec [] [] rows i h]
  constructor
  · rintro ⟨h1, _, h3⟩; exact ⟨h1, h3⟩
  · rintro ⟨h1, h3⟩; exact ⟨h1, ⟨by simp, by simp⟩, h3⟩

/-- The greedy choice is determined by its specification. -/
theorem greedyChoice_unique {rows : List Row} {m m' : List Bool} (h : GreedyChoice rows m) (h' : GreedyChoice rows m') : m = m' := by
  apply List.ext_getElem?
  intro i
  induction i using Nat.strong_induction_on with
  | _ i ih =>
    by_cases hi : i < rows.length
    · have e1 := h.2 i hi
      have e2 := h'.2 i hi
      have hl : i < m.length := by rw [h.1]; exact hi
      have hl' : i < m'.length := by rw [h'.1]; exact hi
      have hiff : m[i]? = some true ↔ m'[i]? = some true := by
        rw [e1, e2]
        constructor
        · rintro ⟨a, b⟩; exact ⟨a, fun j hj hjt => b j hj (by rw [ih j hj]; exact hjt)⟩
        · rintro ⟨a, b⟩; exact ⟨a, fun j hj hjt => b j hj (by rw [← ih j hj]; exact hjt)⟩
      rw [List.getElem?_eq_getElem hl, List.getElem?_eq_getElem hl'] at hiff ⊢
      cases hm : m[i] <;> cases hm' : m'[i] <;> simp_all
    · rw [List.getElem?_eq_none (by rw [h.1]; omega), List.getElem?_eq_none (by rw [h'.1]; omega)]

/-- The pairs of the chosen rows. -/
theorem mem_keptPairs (rows : List Row) (g p : Int) : (g, p) ∈ keptPairs rows ↔
    ∃ i : Nat, ∃ h : i < rows.length, (greedy [] [] rows)[i]? = some true ∧ rows[i].gt = g ∧ rows[i].pd = p := by
  unfold keptPairs unique
  rw [List.mem_dedup, List.mem_map]
  constructor
  · rintro ⟨⟨r, b⟩, hx, he⟩
    rw [List.mem_filter] at hx
    obtain ⟨i, hi, hget⟩ := List.getElem_of_mem hx.1
    rw [List.getElem_zip] at hget
    obtain ⟨h1, h2⟩ := Prod.mk.inj hget
    obtain ⟨h3, h4⟩ := Prod.mk.inj he
    have hb : b = true := hx.2
    have hi' : i < rows.length ∧ i < (greedy [] [] rows).length := by
      rw [List.length_zip] at hi
      omega
    refine ⟨i, hi'.1, ?_, by rw [h1]; exact h3, by rw [h1]; exact h4⟩
    rw [List.getElem?_eq_getElem hi'.2, h2, hb]
  · rintro ⟨i, hi, hm, rfl, rfl⟩
    have hi2 : i < (greedy [] [] rows).length := by rw [greedy_length]; exact hi
    rw [List.getElem?_eq_getElem hi2] at hm
    refine ⟨(rows[i], true), List.mem_filter.2 ⟨?_, rfl⟩, rfl⟩
    rw [List.mem_iff_getElem]
    refine ⟨i, by rw [List.length_zip]; omega, ?_⟩
    rw [List.getElem_zip]
    exact Prod.ext rfl (Option.some.inj hm)

/-- **C30 (one to one).** Chosen pairs that share the ground truth or the prediction are equal. -/
theorem C30_one_to_one (rows : List Row) {g p g' p' : Int} (h : (g, p) ∈ keptPairs rows) (h' : (g', p') ∈ keptPairs rows)
    (hs : g = g' ∨ p = p') : g = g' ∧ p = p' := by
  rw [mem_keptPairs] at h h'
  obtain ⟨i, hi, hm, rfl, rfl⟩ := h
  obtain ⟨j, hj, hm', rfl, rfl⟩ := h'
  rcases Nat.lt_trichotomy i j with hlt | heq | hgt
  · have := (((C30_greedy rows).2 j hj).1 hm').2 i hlt hm
    rcases hs with h | h
    · exact absurd h this.1
    · exact absurd h this.2
  · subst heq; exact ⟨rfl, rfl⟩
  · have := (((C30_greedy rows).2 i hi).1 hm).2 j hgt hm'
    rcases hs with h | h
    · exact absurd h.symm this.1
    · exact absurd h.symm this.2

/-- **C30 (maximal).** A candidate that is not chosen shares a side with an earlier chosen row. -/
theorem C30_maximal (rows : List Row) (i : Nat) (h : i < rows.length) (hc : 0 ≤ rows[i].gt ∧ 0 ≤ rows[i].pd)
    (hn : (greedy [] [] rows)[i]? ≠ some true) :
    ∃ j : Nat, ∃ hj : j < i, (greedy [] [] rows)[j]? = some true ∧ (rows[j].gt = rows[i].gt ∨ rows[j].pd = rows[i].pd) := by
  by_contra hcon
  apply hn
  rw [(C30_greedy rows).2 i h]
  refine ⟨hc, ?_⟩
  intro j hj hjt
  constructor
  · intro he; exact hcon ⟨j, hj, hjt, Or.inl he⟩
  · intro he; exact hcon ⟨j, hj, hjt, Or.inr he⟩

/-- Rows whose ids fit. -/
def RowIds (r : Row) : Prop := IdOrMissing r.gt ∧ IdOrMissing r.pd ∧ IdOk r.datum

instance (r : Row) : Decidable (RowIds r) := by unfold RowIds; infer_instance

theorem keptPairs_ok {rows : List Row} (hids : ∀ r ∈ rows, RowIds r) : ∀ y ∈ keptPairs rows, IdOk y.1 ∧ IdOk y.2 := by
  rintro ⟨g, p⟩ hy
  rw [mem_keptPairs] at hy
  obtain ⟨i, hi, hm, rfl, rfl⟩ := hy
  have hc := (((C30_greedy rows).2 i hi).1 hm).1
  obtain ⟨h1, h2, _⟩ := hids _ (List.getElem_mem hi)
  constructor
  · rcases h1 with h | h
    · have := hc.1; rw [h] at this; omega
    · exact h
  · rcases h2 with h | h
    · have := hc.2; rw [h] at this; omega
    · exact h

/-- **C30 (result).** The returned mask marks the rows whose pair was chosen. -/
theorem C30_matched {rows : List Row} (hids : ∀ r ∈ rows, RowIds r) {r : Row} (hr : r ∈ rows) :
    matched rows r = true ↔ ∃ i : Nat, ∃ h : i < rows.length,
      (greedy [] [] rows)[i]? = some true ∧ rows[i].gt = r.gt ∧ rows[i].pd = r.pd := by
  unfold matched
  rw [C31_isin _ _ ⟨(hids r hr).1, (hids r hr).2.1⟩ (keptPairs_ok hids), mem_keptPairs]

end Verif.Detection
