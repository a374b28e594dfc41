import Verif.Segmentation.Mask
import Mathlib.Data.List.GetD
import Mathlib.Tactic.Common
import Mathlib.Tactic.Tauto
import Mathlib.Logic.Function.Basic

/-! # C36: masks of a segmentation -/

namespace Verif.Segmentation

/-! ## Vocabulary -/

/-- No pixel is in both masks. -/
def Apart (a b : Mask) : Prop := ∀ x, ¬ (bit a x = true ∧ bit b x = true)

/-- No pixel is in two masks of the list. -/
def Disjoint (ms : List Mask) : Prop := ms.Pairwise Apart

/-- The masks of the bitmasks. -/
def masks (h : Heap) (bs : List Bitmask) : List Mask := bs.map (fun b => (h b.addr).data)

/-- Every array has the expected shape and its number of values. -/
def ShapesOk (shape : List Nat) (h : Heap) (bs : List Bitmask) : Prop :=
  ∀ b ∈ bs, (h b.addr).shape = shape ∧ (h b.addr).data.length = shape.prod

/-- No two bitmasks use the same array. -/
def Unshared (bs : List Bitmask) : Prop := (bs.map Bitmask.addr).Nodup

/-! ## Pixels of the mask operations -/

theorem bit_zipWith {f : Bool → Bool → Bool} (hf : f false false = false) {a b : Mask} (hl : a.length = b.length) (x : Nat) :
    bit (List.zipWith f a b) x = f (bit a x) (bit b x) := by
  unfold bit
  rw [List.getD_eq_getElem?_getD, List.getD_eq_getElem?_getD, List.getD_eq_getElem?_getD, List.getElem?_zipWith]
  by_cases hx : x < a.length
  · rw [List.getElem?_eq_getElem hx, List.getElem?_eq_getElem (by omega)]
    rfl
  · rw [List.getElem?_eq_none (by omega), List.getElem?_eq_none (by omega)]
    simp [hf]

theorem bit_replicate (n x : Nat) : bit (List.replicate n false) x = false := by
  unfold bit
  rw [List.getD_eq_getElem?_getD, List.getElem?_replicate]
  split <;> rfl

theorem maskAny_iff {m : Mask} : maskAny m = true ↔ ∃ x, bit m x = true := by
  unfold maskAny bit
  rw [List.any_eq_true]
  constructor
  · rintro ⟨b, hb, he⟩
    obtain ⟨i, hi, rfl⟩ := List.getElem_of_mem hb
    refine ⟨i, ?_⟩
    rw [List.getD_eq_getElem _ _ hi]
    exact he
  · rintro ⟨x, hx⟩
    by_cases h : x < m.length
    · rw [List.getD_eq_getElem _ _ h] at hx
      exact ⟨_, List.getElem_mem h, hx⟩
    · rw [List.getD_eq_default _ _ (by omega)] at hx
      cases hx

/-- Masks of one length with the same pixels are equal. -/
theorem mask_ext {a b : Mask} (hl : a.length = b.length) (h : ∀ x, bit a x = bit b x) : a = b := by
  apply List.ext_getElem hl
  intro i h1 h2
  have := h i
  unfold bit at this
  rwa [List.getD_eq_getElem _ _ h1, List.getD_eq_getElem _ _ h2] at this

/-! ## The loop without a heap -/

/-- The masks after the loop that starts with the accumulated mask `acc`. -/
def run : Mask → List Mask → List Mask
  | _, [] => []
  | acc, m :: ms =>
    if maskAny (maskAnd acc m) then maskClear m (maskAnd acc m) :: run acc ms
    else m :: run (maskOr acc m) ms

/-- The overlap after the loop. -/
def runOverlap : Mask → Mask → List Mask → Mask
  | _, o, [] => o
  | acc, o, m :: ms =>
    if maskAny (maskAnd acc m) then runOverlap acc (maskOr o (maskAnd acc m)) ms
    else runOverlap (maskOr acc m) o ms

theorem run_length (acc : Mask) (ms : List Mask) : (run acc ms).length = ms.length := by
  induction ms generalizing acc with
  | nil => rfl
  | cons m ms ih =>
    unfold run
    split <;> simp [ih]

theorem masks_update {h : Heap} {a : Nat} {v : Arr} {bs : List Bitmask} (hn : a ∉ bs.map Bitmask.addr) :
    masks (Function.update h a v) bs = masks h bs := by
  unfold masks
  apply List.map_congr_left
  intro b hb
  rw [Function.update_of_ne]
  intro he
  exact hn (he ▸ List.mem_map_of_mem hb)

theorem maskOr_replicate (m : Mask) : maskOr (List.replicate m.length false) m = m := by
  unfold maskOr
  induction m with
  | nil => rfl
  | cons a m ih =>
    rw [List.length_cons, List.replicate_succ, List.zipWith_cons_cons, ih]
    rfl

/-- The loop of the code is `run` on the arrays, if none is shared. -/
theorem validateLoop_eq (shape : List Nat) (bs : List Bitmask) (h : Heap) (hs : ShapesOk shape h bs) (hu : Unshared bs)
    (acc o : Mask) (ha : acc.length = shape.prod) :
    ∃ acc', (validateLoop shape h (some (acc, o)) bs).2 = .ok (some (acc', runOverlap acc o (masks h bs))) ∧
      masks (validateLoop shape h (some (acc, o)) bs).1 bs = run acc (masks h bs) ∧
      ∀ a, a ∉ bs.map Bitmask.addr → (validateLoop shape h (some (acc, o)) bs).1 a = h a := by
  induction bs generalizing h acc o with
  | nil => exact ⟨acc, rfl, rfl, fun _ _ => rfl⟩
  | cons b bs ih =>
    have hb := hs b (by simp)
    unfold Unshared at hu
    rw [List.map_cons, List.nodup_cons] at hu
    have hmc : masks h (b :: bs) = (h b.addr).data :: masks h bs := rfl
    rw [hmc]
    unfold validateLoop run runOverlap
    rw [if_neg (by simpa using hb.1)]
    by_cases hany : maskAny (maskAnd acc (h b.addr).data) = true
    · simp only [hany, if_true]
      set v : Arr := { (h b.addr) with data := maskClear (h b.addr).data (maskAnd acc (h b.addr).data) } with hv
      have hs' : ShapesOk shape (Function.update h b.addr v) bs := by
        intro c hc
        rw [Function.update_of_ne]
        · exact hs c (by simp [hc])
        · intro he
          exact hu.1 (he ▸ List.mem_map_of_mem hc)
      obtain ⟨acc', i1, i2, i3⟩ := ih _ hs' hu.2 acc (maskOr o (maskAnd acc (h b.addr).data)) ha
      rw [masks_update hu.1] at i1 i2
      refine ⟨acc', i1, ?_, ?_⟩
      · show _ :: _ = _
        dsimp only
        rw [i3 _ hu.1, Function.update_self, ← i2]
        rfl
      · intro a ha
        rw [List.map_cons, List.mem_cons, not_or] at ha
        rw [i3 a ha.2, Function.update_of_ne ha.1]
    · simp only [hany, if_false, Bool.false_eq_true]
      obtain ⟨acc', i1, i2, i3⟩ := ih h (fun c hc => hs c (by simp [hc])) hu.2 (maskOr acc (h b.addr).data) o
        (by unfold maskOr; rw [List.length_zipWith, ha, hb.2, Nat.min_self])
      refine ⟨acc', i1, ?_, ?_⟩
      · show _ :: _ = _
        dsimp only
        rw [i3 _ hu.1, ← i2]
        rfl
      · intro a ha
        rw [List.map_cons, List.mem_cons, not_or] at ha
        exact i3 a ha.2

/-- The same for `_validate_bitmasks`. -/
theorem validate_eq (shape : List Nat) (bs : List Bitmask) (h : Heap) (hs : ShapesOk shape h bs) (hu : Unshared bs) :
    masks (validate shape h bs).1 bs = run (List.replicate shape.prod false) (masks h bs) ∧
    (∀ a, a ∉ bs.map Bitmask.addr → (validate shape h bs).1 a = h a) ∧
    ∃ w, (validate shape h bs).2 = .ok w ∧
      (w = none ↔ maskAny (runOverlap (List.replicate shape.prod false) (List.replicate shape.prod false) (masks h bs)) = false) := by
  cases bs with
  | nil =>
    refine ⟨rfl, fun _ _ => rfl, none, rfl, ?_⟩
    simp only [true_iff]
    rw [Bool.eq_false_iff]
    intro hc
    rw [maskAny_iff] at hc
    obtain ⟨x, hx⟩ := hc
    unfold masks runOverlap at hx
    rw [List.map_nil] at hx
    simp only [bit_replicate] at hx
    cases hx
  | cons b bs =>
    have hb := hs b (by simp)
    have hz : maskAny (maskAnd (List.replicate shape.prod false) (h b.addr).data) = false := by
      rw [Bool.eq_false_iff]
      intro hc
      rw [maskAny_iff] at hc
      obtain ⟨x, hx⟩ := hc
      unfold maskAnd at hx
      rw [bit_zipWith rfl (by rw [List.length_replicate, hb.2]), bit_replicate] at hx
      cases hx
    have hfirst : validateLoop shape h none (b :: bs)
        = validateLoop shape h (some (List.replicate shape.prod false, List.replicate shape.prod false)) (b :: bs) := by
      rw [validateLoop, validateLoop, if_neg (by simpa using hb.1), if_neg (by simpa using hb.1)]
      simp only [hz, Bool.false_eq_true, if_false]
      rw [← hb.2, maskOr_replicate]
    obtain ⟨acc', h1, h2, h3⟩ := validateLoop_eq shape (b :: bs) h hs hu (List.replicate shape.prod false) (List.replicate shape.prod false)
      (List.length_replicate ..)
    unfold validate
    dsimp only
    rw [hfirst, h1]
    refine ⟨h2, h3, _, rfl, ?_⟩
    show (if _ then _ else _) = none ↔ _
    split
    · rename_i hw
      simp [hw]
    · rename_i hw
      simpa using hw

/-! ## What the loop computes -/

theorem run_spec (N : Nat) (acc : Mask) (ha : acc.length = N) (ms : List Mask) (hm : ∀ m ∈ ms, m.length = N) :
    ∃ C : Nat → Prop,
      (∀ i (hi : i < ms.length), C i ↔ Apart acc ms[i] ∧ ∀ j (hj : j < i), C j → Apart ms[j] ms[i]) ∧
      ∀ i (hi : i < ms.length) (hi' : i < (run acc ms).length), (run acc ms)[i].length = N ∧ ∀ x,
        bit (run acc ms)[i] x = true ↔ bit ms[i] x = true ∧ bit acc x = false ∧ ¬ ∃ j, ∃ hj : j < i, C j ∧ bit ms[j] x = true := by
  induction ms generalizing acc with
  | nil => exact ⟨fun _ => True, by simp, by simp⟩
  | cons m ms ih =>
    have hml : m.length = N := hm m (by simp)
    have hand : ∀ x, bit (maskAnd acc m) x = (bit acc x && bit m x) := fun x => bit_zipWith rfl (by omega) x
    have hany : maskAny (maskAnd acc m) = true ↔ ¬ Apart acc m := by
      rw [maskAny_iff]
      unfold Apart
      simp only [hand, Bool.and_eq_true, not_forall, not_not]
    by_cases hc : maskAny (maskAnd acc m) = true
    · obtain ⟨C, h1, h2⟩ := ih acc ha (fun m' hm' => hm m' (by simp [hm']))
      have hrun : run acc (m :: ms) = maskClear m (maskAnd acc m) :: run acc ms := by
        rw [run, if_pos hc]
      refine ⟨fun i => match i with | 0 => False | i + 1 => C i, ?_, ?_⟩
      · rintro (_ | i) hi
        · simp only [List.getElem_cons_zero, Nat.not_lt_zero, false_iff, not_and]
          intro hcon
          exact absurd hcon (hany.1 hc)
        · simp only [List.getElem_cons_succ]
          rw [List.length_cons] at hi
          rw [h1 i (by omega)]
          constructor
          · rintro ⟨g1, g2⟩
            refine ⟨g1, ?_⟩
            rintro (_ | j) hj hC
            · exact hC.elim
            · simpa using g2 j (by omega) hC
          · rintro ⟨g1, g2⟩
            exact ⟨g1, fun j hj hC => by simpa using g2 (j + 1) (by omega) hC⟩
      · simp only [hrun]
        rintro (_ | i) hi hi'
        · simp only [List.getElem_cons_zero]
          refine ⟨by unfold maskClear maskAnd; simp [hml, ha], ?_⟩
          intro x
          unfold maskClear
          rw [bit_zipWith (by simp) (by unfold maskAnd; simp [hml, ha]), hand]
          cases bit acc x <;> cases bit m x <;> simp
        · simp only [List.getElem_cons_succ]
          rw [List.length_cons] at hi
          obtain ⟨g1, g2⟩ := h2 i (by omega) (by rw [run_length]; omega)
          refine ⟨g1, ?_⟩
          intro x
          rw [g2 x]
          refine and_congr_right fun _ => and_congr_right fun _ => not_congr ?_
          constructor
          · rintro ⟨j, hj, hC, hx⟩
            exact ⟨j + 1, by omega, hC, by simpa using hx⟩
          · rintro ⟨j, hj, hC, hx⟩
            cases j with
            | zero => exact hC.elim
            | succ j => exact ⟨j, by omega, hC, by simpa using hx⟩
    · have hor : ∀ x, bit (maskOr acc m) x = (bit acc x || bit m x) := fun x => bit_zipWith rfl (by omega) x
      obtain ⟨C, h1, h2⟩ := ih (maskOr acc m) (by unfold maskOr; simp [ha, hml]) (fun m' hm' => hm m' (by simp [hm']))
      have hrun : run acc (m :: ms) = m :: run (maskOr acc m) ms := by
        rw [run, if_neg hc]
      have hap : Apart acc m := by
        by_contra hcon
        exact hc (hany.2 hcon)
      have hapor : ∀ m', Apart (maskOr acc m) m' ↔ Apart acc m' ∧ Apart m m' := by
        intro m'
        unfold Apart
        simp only [hor, Bool.or_eq_true]
        constructor
        · intro h
          exact ⟨fun x hx => h x ⟨Or.inl hx.1, hx.2⟩, fun x hx => h x ⟨Or.inr hx.1, hx.2⟩⟩
        · rintro ⟨g1, g2⟩ x ⟨hx | hx, hy⟩
          · exact g1 x ⟨hx, hy⟩
          · exact g2 x ⟨hx, hy⟩
      refine ⟨fun i => match i with | 0 => True | i + 1 => C i, ?_, ?_⟩
      · rintro (_ | i) hi
        · simp only [List.getElem_cons_zero, Nat.not_lt_zero, true_iff]
          exact ⟨hap, fun j hj => hj.elim⟩
        · simp only [List.getElem_cons_succ]
          rw [List.length_cons] at hi
          rw [h1 i (by omega), hapor]
          constructor
          · rintro ⟨⟨g1, g0⟩, g2⟩
            refine ⟨g1, ?_⟩
            rintro (_ | j) hj hC
            · simpa using g0
            · simpa using g2 j (by omega) hC
          · rintro ⟨g1, g2⟩
            exact ⟨⟨g1, by simpa using g2 0 (by omega) trivial⟩, fun j hj hC => by simpa using g2 (j + 1) (by omega) hC⟩
      · simp only [hrun]
        rintro (_ | i) hi hi'
        · simp only [List.getElem_cons_zero]
          refine ⟨hml, ?_⟩
          intro x
          constructor
          · intro hx
            refine ⟨hx, ?_, ?_⟩
            · by_contra hcon
              exact hap x ⟨by simpa using hcon, hx⟩
            · rintro ⟨j, hj, _⟩
              omega
          · rintro ⟨hx, _⟩
            exact hx
        · simp only [List.getElem_cons_succ]
          rw [List.length_cons] at hi
          obtain ⟨g1, g2⟩ := h2 i (by omega) (by rw [run_length]; omega)
          refine ⟨g1, ?_⟩
          intro x
          rw [g2 x, hor, Bool.or_eq_false_iff]
          constructor
          · rintro ⟨k1, ⟨k2, k3⟩, k4⟩
            refine ⟨k1, k2, ?_⟩
            rintro ⟨j, hj, hC, hx⟩
            cases j with
            | zero => simp only [List.getElem_cons_zero] at hx; rw [k3] at hx; cases hx
            | succ j => exact k4 ⟨j, by omega, hC, by simpa using hx⟩
          · rintro ⟨k1, k2, k3⟩
            refine ⟨k1, ⟨k2, ?_⟩, ?_⟩
            · by_contra hcon
              exact k3 ⟨0, by omega, trivial, by simpa using hcon⟩
            · rintro ⟨j, hj, hC, hx⟩
              exact k3 ⟨j + 1, by omega, hC, by simpa using hx⟩

theorem runOverlap_mono (N : Nat) (acc o : Mask) (ha : acc.length = N) (ho : o.length = N) (ms : List Mask) (hm : ∀ m ∈ ms, m.length = N)
    {x : Nat} (hx : bit o x = true) : bit (runOverlap acc o ms) x = true := by
  induction ms generalizing acc o with
  | nil => exact hx
  | cons m ms ih =>
    have hml : m.length = N := hm m (by simp)
    unfold runOverlap
    split
    · apply ih
      · exact ha
      · unfold maskOr maskAnd; simp [ho, ha, hml]
      · exact fun m' hm' => hm m' (by simp [hm'])
      · unfold maskOr
        rw [bit_zipWith rfl (by unfold maskAnd; simp [ho, ha, hml]), hx]
        rfl
    · apply ih
      · unfold maskOr; simp [ha, hml]
      · exact ho
      · exact fun m' hm' => hm m' (by simp [hm'])
      · exact hx

theorem runOverlap_none (N : Nat) (acc o : Mask) (ha : acc.length = N) (ho : o.length = N) (ms : List Mask) (hm : ∀ m ∈ ms, m.length = N)
    (hz : maskAny o = false) :
    maskAny (runOverlap acc o ms) = false ↔ Disjoint ms ∧ ∀ m ∈ ms, Apart acc m := by
  induction ms generalizing acc o with
  | nil => simp [runOverlap, hz, Disjoint]
  | cons m ms ih =>
    have hml : m.length = N := hm m (by simp)
    have hand : ∀ x, bit (maskAnd acc m) x = (bit acc x && bit m x) := fun x => bit_zipWith rfl (by omega) x
    unfold runOverlap
    split
    · rename_i hc
      obtain ⟨x, hx⟩ := maskAny_iff.1 hc
      constructor
      · intro hcon
        exfalso
        rw [Bool.eq_false_iff] at hcon
        apply hcon
        rw [maskAny_iff]
        refine ⟨x, runOverlap_mono N _ _ ha (by unfold maskOr maskAnd; simp [ho, ha, hml]) ms (fun m' hm' => hm m' (by simp [hm'])) ?_⟩
        unfold maskOr
        rw [bit_zipWith rfl (by unfold maskAnd; simp [ho, ha, hml]), hx, Bool.or_true]
      · rintro ⟨_, hcon⟩
        exfalso
        rw [hand, Bool.and_eq_true] at hx
        exact hcon m (by simp) x hx
    · rename_i hc
      have hap : Apart acc m := by
        intro x hx
        apply hc
        rw [maskAny_iff]
        exact ⟨x, by rw [hand, Bool.and_eq_true]; exact hx⟩
      rw [ih _ _ (by unfold maskOr; simp [ha, hml]) ho (fun m' hm' => hm m' (by simp [hm'])) hz]
      have hor : ∀ x, bit (maskOr acc m) x = (bit acc x || bit m x) := fun x => bit_zipWith rfl (by omega) x
      unfold Disjoint
      rw [List.pairwise_cons]
      constructor
      · rintro ⟨g1, g2⟩
        refine ⟨⟨fun m' hm' x hx => g2 m' hm' x ⟨by rw [hor, hx.1, Bool.or_true], hx.2⟩, g1⟩, ?_⟩
        intro m' hm'
        rcases List.mem_cons.1 hm' with rfl | hm'
        · exact hap
        · exact fun x hx => g2 m' hm' x ⟨by rw [hor, hx.1, Bool.true_or], hx.2⟩
      · rintro ⟨⟨g1, g2⟩, g3⟩
        refine ⟨g2, ?_⟩
        intro m' hm' x hx
        rw [hor, Bool.or_eq_true] at hx
        rcases hx.1 with h | h
        · exact g3 m' (by simp [hm']) x ⟨h, hx.2⟩
        · exact g1 m' hm' x ⟨h, hx.2⟩

/-! ## C36 -/

/-- **C36 (exact result).** With `C` the masks that meet no earlier mask of `C` (this determines `C`), each
mask loses exactly the pixels of the earlier masks of `C`. -/
theorem C36_exact_partial (shape : List Nat) (h : Heap) (bs : List Bitmask) (hs : ShapesOk shape h bs) (hu : Unshared bs) :
    (∃ w, (validate shape h bs).2 = .ok w) ∧
    ∃ C : Nat → Prop,
      (∀ i (hi : i < (masks h bs).length), C i ↔ ∀ j (hj : j < i), C j → Apart (masks h bs)[j] (masks h bs)[i]) ∧
      ∃ hl : (masks (validate shape h bs).1 bs).length = (masks h bs).length,
      ∀ i (hi : i < (masks h bs).length), (masks (validate shape h bs).1 bs)[i].length = shape.prod ∧
        ∀ x, bit (masks (validate shape h bs).1 bs)[i] x = true ↔
          bit (masks h bs)[i] x = true ∧ ¬ ∃ j, ∃ hj : j < i, C j ∧ bit (masks h bs)[j] x = true := by
  obtain ⟨h1, h2, w, h3, _⟩ := validate_eq shape bs h hs hu
  refine ⟨⟨w, h3⟩, ?_⟩
  have hm : ∀ m ∈ masks h bs, m.length = shape.prod := by
    intro m hm
    obtain ⟨b, hb, rfl⟩ := List.mem_map.1 hm
    exact (hs b hb).2
  obtain ⟨C, c1, c2⟩ := run_spec shape.prod (List.replicate shape.prod false) (List.length_replicate ..) (masks h bs) hm
  refine ⟨C, ?_, by rw [h1, run_length], ?_⟩
  · intro i hi
    rw [c1 i hi]
    constructor
    · exact fun h => h.2
    · intro h
      refine ⟨?_, h⟩
      intro x hx
      rw [bit_replicate] at hx
      cases hx.1
  · intro i hi
    obtain ⟨g1, g2⟩ := c2 i hi (by rw [run_length]; exact hi)
    simp only [h1]
    refine ⟨g1, ?_⟩
    intro x
    rw [g2 x, bit_replicate]
    simp

/-- **C36 (nothing to do).** Disjoint masks are unchanged and give no warning. -/
theorem C36_disjoint_unchanged (shape : List Nat) (h : Heap) (bs : List Bitmask) (hs : ShapesOk shape h bs) (hu : Unshared bs)
    (hd : Disjoint (masks h bs)) : masks (validate shape h bs).1 bs = masks h bs ∧ (validate shape h bs).2 = .ok none := by
  obtain ⟨_, C, c1, hl, c2⟩ := C36_exact_partial shape h bs hs hu
  have hm : ∀ m ∈ masks h bs, m.length = shape.prod := by
    intro m hm
    obtain ⟨b, hb, rfl⟩ := List.mem_map.1 hm
    exact (hs b hb).2
  unfold Disjoint at hd
  rw [List.pairwise_iff_getElem] at hd
  constructor
  · apply List.ext_getElem hl
    intro i g1 g2
    obtain ⟨k1, k2⟩ := c2 i g2
    apply mask_ext
    · rw [k1, hm _ (List.getElem_mem _)]
    · intro x
      rw [Bool.eq_iff_iff, k2 x]
      constructor
      · exact fun h => h.1
      · intro hx
        refine ⟨hx, ?_⟩
        rintro ⟨j, hj, _, hy⟩
        exact hd j i (by omega) g2 hj x ⟨hy, hx⟩
  · obtain ⟨_, _, w, h3, h4⟩ := validate_eq shape bs h hs hu
    rw [h3]
    congr 1
    rw [h4, runOverlap_none shape.prod _ _ (List.length_replicate ..) (List.length_replicate ..) _ hm]
    · refine ⟨by unfold Disjoint; rw [List.pairwise_iff_getElem]; exact hd, ?_⟩
      intro m _ x hx
      rw [bit_replicate] at hx
      cases hx.1
    · rw [Bool.eq_false_iff]
      intro hc
      obtain ⟨x, hx⟩ := maskAny_iff.1 hc
      rw [bit_replicate] at hx
      cases hx

/-- **C36 (warning).** No warning is given if and only if the masks were disjoint. -/
theorem C36_warning (shape : List Nat) (h : Heap) (bs : List Bitmask) (hs : ShapesOk shape h bs) (hu : Unshared bs) :
    (validate shape h bs).2 = .ok none ↔ Disjoint (masks h bs) := by
  refine ⟨?_, fun hd => (C36_disjoint_unchanged shape h bs hs hu hd).2⟩
  intro hn
  obtain ⟨_, _, w, h3, h4⟩ := validate_eq shape bs h hs hu
  rw [h3] at hn
  have hw : w = none := by injection hn
  rw [h4, runOverlap_none shape.prod _ _ (List.length_replicate ..) (List.length_replicate ..)] at hw
  · exact hw.1
  · intro m hm
    obtain ⟨b, hb, rfl⟩ := List.mem_map.1 hm
    exact (hs b hb).2
  · rw [Bool.eq_false_iff]
    intro hc
    obtain ⟨x, hx⟩ := maskAny_iff.1 hc
    rw [bit_replicate] at hx
    cases hx

/-- **C36 (no pixel is lost).** A pixel is in some mask afterwards if and only if it was before. -/
theorem C36_union (shape : List Nat) (h : Heap) (bs : List Bitmask) (hs : ShapesOk shape h bs) (hu : Unshared bs) (x : Nat) :
    (∃ m ∈ masks (validate shape h bs).1 bs, bit m x = true) ↔ ∃ m ∈ masks h bs, bit m x = true := by
  obtain ⟨_, C, c1, hl, c2⟩ := C36_exact_partial shape h bs hs hu
  constructor
  · rintro ⟨m, hm, hx⟩
    obtain ⟨i, hi, rfl⟩ := List.getElem_of_mem hm
    rw [(c2 i (by omega)).2 x] at hx
    exact ⟨_, List.getElem_mem _, hx.1⟩
  · rintro ⟨m, hm, hx⟩
    obtain ⟨i, hi, rfl⟩ := List.getElem_of_mem hm
    by_cases hc : ∃ j, ∃ hj : j < i, C j ∧ bit (masks h bs)[j] x = true
    · obtain ⟨j, hj, hC, hy⟩ := hc
      refine ⟨(masks (validate shape h bs).1 bs)[j], List.getElem_mem _, ?_⟩
      rw [(c2 j (by omega)).2 x]
      refine ⟨hy, ?_⟩
      rintro ⟨k, hk, hCk, hz⟩
      exact (c1 j (by omega)).1 hC k hk hCk x ⟨hz, hy⟩
    · exact ⟨(masks (validate shape h bs).1 bs)[i], List.getElem_mem _, by rw [(c2 i hi).2 x]; exact ⟨hx, hc⟩⟩

/-- **C36 (two masks).** Up to two masks are disjoint afterwards. -/
theorem C36_two_partial (shape : List Nat) (h : Heap) (bs : List Bitmask) (hs : ShapesOk shape h bs) (hu : Unshared bs) (h2 : bs.length ≤ 2) :
    Disjoint (masks (validate shape h bs).1 bs) := by
  obtain ⟨_, C, c1, hl, c2⟩ := C36_exact_partial shape h bs hs hu
  have hb : (masks h bs).length = bs.length := List.length_map ..
  unfold Disjoint
  rw [List.pairwise_iff_getElem]
  intro i j hi hj hij x hx
  rw [(c2 i (by omega)).2 x, (c2 j (by omega)).2 x] at hx
  refine hx.2.2 ⟨i, hij, ?_, hx.1.1⟩
  rw [c1 i (by omega)]
  intro k hk
  omega

/-- Three masks: the second overlaps the first and, away from the first, the third. -/
def threeHeap : Heap := fun a => ⟨[1, 2], if a = 0 then [true, false] else if a = 1 then [true, true] else [false, true]⟩

/-- Bitmasks of `threeHeap`. -/
def threeBits : List Bitmask := [⟨0, "a", none⟩, ⟨1, "b", none⟩, ⟨2, "c", none⟩]

/-- **C36, violation.** After construction pixel 1 is in the second and in the third mask: masks that lost
pixels are not accumulated. -/
theorem C36_violation :
    ShapesOk [1, 2] threeHeap threeBits ∧ Unshared threeBits ∧
    (postInit [1, 2] threeHeap [] threeBits).2 = .ok (none, some 1) ∧
    masks (postInit [1, 2] threeHeap [] threeBits).1 threeBits = [[true, false], [false, true], [false, true]] ∧
    ¬ Disjoint (masks (postInit [1, 2] threeHeap [] threeBits).1 threeBits) := by
  have e : masks (postInit [1, 2] threeHeap [] threeBits).1 threeBits = [[true, false], [false, true], [false, true]] := by decide +kernel
  refine ⟨by unfold ShapesOk; decide +kernel, by unfold Unshared; decide +kernel, by decide +kernel, e, ?_⟩
  rw [e]
  unfold Disjoint
  rw [List.pairwise_cons, List.pairwise_cons]
  intro h
  exact h.2.1 [false, true] (by simp) 1 ⟨rfl, rfl⟩

/-- **C36 (shared array), violation.** Two bitmasks that use the same array both become empty, so the pixel is
lost. -/
theorem C36_shared_violation :
    let bs : List Bitmask := [⟨0, "a", none⟩, ⟨0, "b", none⟩]
    masks threeHeap bs = [[true, false], [true, false]] ∧
    (postInit [1, 2] threeHeap bs []).2 = .ok (some 1, none) ∧
    masks (postInit [1, 2] threeHeap bs []).1 bs = [[false, false], [false, false]] := by
  decide +kernel

/-- **C36 (failed construction), violation.** A construction that raises may already have changed an array of
the caller: the second mask lost its overlap before the third was found to have the wrong shape. -/
theorem C36_error_violation :
    let h : Heap := fun a => if a = 3 then ⟨[2, 2], [true, true, true, true]⟩ else threeHeap a
    let bs : List Bitmask := [⟨0, "a", none⟩, ⟨1, "b", none⟩, ⟨3, "c", none⟩]
    (postInit [1, 2] h bs []).2 = .error .maskShape ∧ (h 1).data = [true, true] ∧ ((postInit [1, 2] h bs []).1 1).data = [false, true] := by
  decide +kernel

/-- **C36 (constructor).** The constructor accepts two-dimensional shapes with positive sizes whose masks have
that shape, and then its masks are those of the two checks; it raises otherwise. -/
theorem C36_accepts (shape : List Int) (h : Heap) (gts pds : List Bitmask) :
    (∃ w, (postInit shape h gts pds).2 = .ok w) ↔
      ∃ a b : Int, shape = [a, b] ∧ 0 < a ∧ 0 < b ∧ ∀ m ∈ gts ++ pds, (h m.addr).shape = [a.toNat, b.toNat] := by
  have hloop : ∀ (s : List Nat) (bs : List Bitmask) (h : Heap) (acc : Acc),
      ((∃ w, (validateLoop s h acc bs).2 = .ok w) ↔ ∀ m ∈ bs, (h m.addr).shape = s) ∧
      ∀ a, ((validateLoop s h acc bs).1 a).shape = (h a).shape := by
    intro s bs
    induction bs with
    | nil =>
      intro h acc
      exact ⟨⟨fun _ m hm => absurd hm (by simp), fun _ => ⟨acc, rfl⟩⟩, fun _ => rfl⟩
    | cons b bs ih =>
      intro h acc
      unfold validateLoop
      by_cases hb : (h b.addr).shape = s
      · rw [if_neg (by simpa using hb)]
        have hsplit : (∀ m ∈ b :: bs, (h m.addr).shape = s) ↔ ∀ m ∈ bs, (h m.addr).shape = s := by
          simp [hb]
        rw [hsplit]
        cases acc with
        | none => exact ih _ _
        | some p =>
          obtain ⟨p1, p2⟩ := p
          dsimp only
          split
          · have hsh : ∀ a (v : Mask), ((Function.update h b.addr { (h b.addr) with data := v } : Heap) a).shape = (h a).shape := by
              intro a v
              by_cases ha : a = b.addr
              · subst ha; rw [Function.update_self]
              · rw [Function.update_of_ne ha]
            refine ⟨(ih _ _).1.trans ?_, fun a => ((ih _ _).2 a).trans (hsh a _)⟩
            simp only [hsh]
          · exact ih _ _
      · rw [if_pos hb]
        refine ⟨⟨?_, ?_⟩, fun _ => rfl⟩
        · rintro ⟨w, hw⟩
          cases hw
        · intro hcon
          exact absurd (hcon b (by simp)) hb
  have hval : ∀ (s : List Nat) (bs : List Bitmask) (h : Heap),
      ((∃ w, (validate s h bs).2 = .ok w) ↔ ∀ m ∈ bs, (h m.addr).shape = s) ∧ ∀ a, ((validate s h bs).1 a).shape = (h a).shape := by
    intro s bs h
    obtain ⟨g1, g2⟩ := hloop s bs h none
    refine ⟨?_, g2⟩
    rw [← g1]
    unfold validate
    dsimp only
    constructor
    · rintro ⟨w, hw⟩
      cases hr : (validateLoop s h none bs).2 with
      | error e => rw [hr] at hw; cases hw
      | ok v => exact ⟨v, rfl⟩
    · rintro ⟨w, hw⟩
      rw [hw]
      exact ⟨_, rfl⟩
  unfold postInit
  split
  · rename_i a b
    by_cases hab : a ≤ 0 ∨ b ≤ 0
    · rw [if_pos hab]
      constructor
      · rintro ⟨w, hw⟩; cases hw
      · rintro ⟨a', b', he, h1, h2, _⟩
        cases he
        omega
    · rw [if_neg hab]
      dsimp only
      obtain ⟨g1, g2⟩ := hval [a.toNat, b.toNat] gts h
      obtain ⟨k1, k2⟩ := hval [a.toNat, b.toNat] pds (validate [a.toNat, b.toNat] h gts).1
      simp only [g2] at k1
      cases hr : (validate [a.toNat, b.toNat] h gts).2 with
      | error e =>
        dsimp only
        constructor
        · rintro ⟨w, hw⟩; cases hw
        · rintro ⟨a', b', he, h1, h2, h3⟩
          cases he
          obtain ⟨w, hw⟩ := g1.2 (fun m hm => h3 m (by simp [hm]))
          rw [hr] at hw
          cases hw
      | ok w =>
        dsimp only
        have g := g1.1 ⟨w, hr⟩
        constructor
        · rintro ⟨w', hw⟩
          refine ⟨a, b, rfl, by omega, by omega, ?_⟩
          intro m hm
          rcases List.mem_append.1 hm with hm | hm
          · exact g m hm
          · cases hr' : (validate [a.toNat, b.toNat] (validate [a.toNat, b.toNat] h gts).1 pds).2 with
            | error e => rw [hr'] at hw; cases hw
            | ok v => exact k1.1 ⟨v, hr'⟩ m hm
        · rintro ⟨a', b', he, h1, h2, h3⟩
          cases he
          obtain ⟨v, hv⟩ := k1.2 (fun m hm => h3 m (by simp [hm]))
          rw [hv]
          exact ⟨_, rfl⟩
  · rename_i hne
    constructor
    · rintro ⟨w, hw⟩; cases hw
    · rintro ⟨a, b, he, _⟩
      exact absurd he (hne a b)

example : ∃ w, (postInit [1, 2] threeHeap threeBits []).2 = .ok w := ⟨_, rfl⟩

example : ShapesOk [1, 2] threeHeap (threeBits.take 2) ∧ Unshared (threeBits.take 2) ∧ ¬ Disjoint (masks threeHeap (threeBits.take 2)) := by
  refine ⟨by unfold ShapesOk; decide +kernel, by unfold Unshared; decide +kernel, ?_⟩
  intro h
  unfold Disjoint at h
  exact (List.pairwise_cons.1 h).1 [true, true] (by decide +kernel) 0 ⟨rfl, rfl⟩

example : Disjoint (masks threeHeap [⟨0, "a", none⟩, ⟨2, "c", none⟩]) := by
  unfold Disjoint masks
  rw [List.map_cons, List.map_cons, List.map_nil, List.pairwise_pair]
  intro x hx
  match x with
  | 0 => exact absurd hx.2 (by decide +kernel)
  | 1 => exact absurd hx.1 (by decide +kernel)
  | n + 2 => exact absurd hx.1 (by simp [threeHeap, bit])

end Verif.Segmentation
