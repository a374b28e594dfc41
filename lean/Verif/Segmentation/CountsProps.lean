import Verif.Segmentation.Model
import Verif.Segmentation.MaskProps
import Mathlib.Algebra.BigOperators.Group.List.Basic

/-! # C37: every pixel is counted once -/

namespace Verif.Segmentation

/-! ## Specification -/

/-- The label of the mask that holds pixel `x`. -/
def labelAt (ms : List (Mask × Nat)) (x : Nat) : Option Nat := (ms.find? (fun m => bit m.1 x)).map Prod.snd

/-- Index of a label in the matrix; 0 for no label. -/
def code : Option Nat → Nat
  | none => 0
  | some i => i + 1

/-- Number of pixels with the given ground truth and prediction. -/
def pixels (size : Nat) (g p : Nat → Option Nat) (i j : Nat) : Nat :=
  (List.range size).countP (fun x => decide (code (g x) = i ∧ code (p x) = j))

/-- Masks of one size without common pixels, with distinct labels; no labels go with one empty mask
(`loader.py` 68-94). -/
structure SideOk (size : Nat) (ms : List Mask) (ls : List Nat) : Prop where
  lens : ∀ m ∈ ms, m.length = size
  disjoint : Disjoint ms
  labels : ls.Nodup
  paired : ms.length = ls.length ∨ (ls = [] ∧ ms = [List.replicate size false])

/-! ## Lemmas -/

theorem count_true (m : Mask) : m.count true = (List.range m.length).countP (fun x => bit m x) := by
  have : m = (List.range m.length).map (fun x => bit m x) := by
    apply List.ext_getElem (by simp)
    intro i h1 h2
    rw [List.getElem_map, List.getElem_range]
    unfold bit
    rw [List.getD_eq_getElem _ _ h1]
  conv_lhs => rw [this, List.count, List.countP_map]
  apply List.countP_congr
  intro x _
  simp

theorem intersection_eq {size : Nat} {a b : Mask} (ha : a.length = size) (hb : b.length = size) :
    (maskAnd a b).count true = (List.range size).countP (fun x => bit a x && bit b x) := by
  have hl : (maskAnd a b).length = size := by unfold maskAnd; simp [ha, hb]
  rw [count_true, hl]
  apply List.countP_congr
  intro x _
  unfold maskAnd
  rw [bit_zipWith rfl (by omega)]

/-- Counts over disjoint masks add up. -/
theorem sum_disjoint {ms : List Mask} (hd : Disjoint ms) (l : List Nat) (q : Nat → Bool) :
    (ms.map (fun m => l.countP (fun x => q x && bit m x))).sum = l.countP (fun x => q x && ms.any (fun m => bit m x)) := by
  induction ms with
  | nil => simp
  | cons m ms ih =>
    unfold Disjoint at hd
    rw [List.pairwise_cons] at hd
    rw [List.map_cons, List.sum_cons, ih hd.2]
    clear ih
    induction l with
    | nil => rfl
    | cons x l ih =>
      rw [List.countP_cons, List.countP_cons, List.countP_cons, ← ih]
      have : bit m x = true → ms.any (fun m => bit m x) = false := by
        intro hx
        rw [Bool.eq_false_iff]
        intro hc
        rw [List.any_eq_true] at hc
        obtain ⟨m', hm', hx'⟩ := hc
        exact hd.1 m' hm' x ⟨hx, hx'⟩
      rw [List.any_cons]
      cases hm : bit m x with
      | false => simp; omega
      | true => rw [this hm]; cases q x <;> simp; omega

theorem map_range_getD (ms : List Mask) (F : Mask → Nat) :
    (List.range ms.length).map (fun b => F (ms.getD b [])) = ms.map F := by
  apply List.ext_getElem (by simp)
  intro i h1 h2
  rw [List.getElem_map, List.getElem_map, List.getElem_range, List.getD_eq_getElem]

theorem u64_small {x : Nat} (h : x < 2 ^ 64) : u64 (x : Int) = x := by
  unfold u64
  rw [Int.emod_eq_of_lt (by omega) (by exact_mod_cast h)]
  exact Int.toNat_natCast x

theorem unmatched_eq {size : Nat} {g : Mask} (hg : g.length = size) {ms : List Mask} (hm : ∀ m ∈ ms, m.length = size) (hd : Disjoint ms)
    (hs : size < 2 ^ 64) :
    u64 ((g.count true : Int) - ((ms.map (fun m => (maskAnd g m).count true)).sum : Nat))
      = (List.range size).countP (fun x => bit g x && !ms.any (fun m => bit m x)) := by
  have h1 : ms.map (fun m => (maskAnd g m).count true) = ms.map (fun m => (List.range size).countP (fun x => bit g x && bit m x)) := by
    apply List.map_congr_left
    intro m hmm
    exact intersection_eq hg (hm m hmm)
  rw [h1, sum_disjoint hd, count_true, hg]
  have h2 : (List.range size).countP (fun x => bit g x)
      = (List.range size).countP (fun x => bit g x && ms.any (fun m => bit m x))
        + (List.range size).countP (fun x => bit g x && !ms.any (fun m => bit m x)) := by
    generalize List.range size = l
    induction l with
    | nil => rfl
    | cons x l ih =>
      rw [List.countP_cons, List.countP_cons, List.countP_cons, ih]
      cases bit g x <;> cases ms.any (fun m => bit m x) <;> simp <;> omega
  rw [h2]
  have h3 : (List.range size).countP (fun x => bit g x && !ms.any (fun m => bit m x)) < 2 ^ 64 :=
    lt_of_le_of_lt (List.countP_le_length) (by rw [List.length_range]; exact hs)
  rw [← u64_small h3]
  congr 1
  rw [u64_small h3]
  push_cast
  omega

theorem lastIdx_getElem {ls : List Nat} (hn : ls.Nodup) {a : Nat} (ha : a < ls.length) : lastIdx ls ls[a] = some a := by
  unfold lastIdx
  rw [if_pos (List.getElem_mem ha)]
  congr 1
  have hr : ls.reverse[ls.length - 1 - a]'(by simp; omega) = ls[a] := by
    rw [List.getElem_reverse]
    congr 1
    omega
  rw [← hr, (List.nodup_reverse.2 hn).idxOf_getElem]
  omega

theorem lastIdx_none {ls : List Nat} {v : Nat} (h : v ∉ ls) : lastIdx ls v = none := by
  unfold lastIdx
  rw [if_neg h]

theorem labelAt_none {size : Nat} {ms : List Mask} {ls : List Nat} (h : SideOk size ms ls) (x : Nat) :
    labelAt (ms.zip ls) x = none ↔ ms.any (fun m => bit m x) = false := by
  unfold labelAt
  rw [Option.map_eq_none_iff, List.find?_eq_none, List.any_eq_false]
  rcases h.paired with hp | ⟨rfl, rfl⟩
  · constructor
    · intro hz m hm
      obtain ⟨i, hi, rfl⟩ := List.getElem_of_mem hm
      exact hz (ms[i], ls[i]'(by omega)) (by
        rw [← List.getElem_zip (h := by rw [List.length_zip]; omega)]
        exact List.getElem_mem _)
    · rintro hz ⟨m, l⟩ hm
      exact hz m (List.of_mem_zip hm).1
  · simp [bit_replicate]

theorem labelAt_some {size : Nat} {ms : List Mask} {ls : List Nat} (h : SideOk size ms ls) {a : Nat} (ha : a < ls.length) (ha' : a < ms.length) (x : Nat) :
    labelAt (ms.zip ls) x = some ls[a] ↔ bit ms[a] x = true := by
  have hp : ms.length = ls.length := by
    rcases h.paired with hp | ⟨rfl, rfl⟩
    · exact hp
    · simp at ha
  have hz : ∀ i (h1 : i < ms.length) (h2 : i < ls.length), (ms[i], ls[i]) ∈ ms.zip ls := by
    intro i h1 h2
    rw [← List.getElem_zip (h := by rw [List.length_zip]; omega)]
    exact List.getElem_mem _
  unfold labelAt
  constructor
  · intro hs
    obtain ⟨⟨m, l⟩, hf, hl⟩ := Option.map_eq_some_iff.1 hs
    have hb := List.find?_some hf
    obtain ⟨i, hi, he⟩ := List.getElem_of_mem (List.mem_of_find?_eq_some hf)
    rw [List.length_zip] at hi
    rw [List.getElem_zip] at he
    obtain ⟨e1, e2⟩ := Prod.mk.injEq .. ▸ he
    dsimp only at hl hb
    have : i = a := by
      have h3 : ls[i]'(by omega) = ls[a] := by rw [e2, hl]
      exact (List.Nodup.getElem_inj_iff h.labels).1 h3
    subst this
    rw [e1]
    exact hb
  · intro hb
    cases hf : (ms.zip ls).find? (fun m => bit m.1 x) with
    | none =>
      rw [List.find?_eq_none] at hf
      exact absurd hb (hf _ (hz a ha' ha))
    | some y =>
      obtain ⟨m, l⟩ := y
      have hb' := List.find?_some hf
      obtain ⟨i, hi, he⟩ := List.getElem_of_mem (List.mem_of_find?_eq_some hf)
      rw [List.length_zip] at hi
      rw [List.getElem_zip] at he
      obtain ⟨e1, e2⟩ := Prod.mk.injEq .. ▸ he
      dsimp only at hb'
      have : i = a := by
        by_contra hne
        have hd := h.disjoint
        unfold Disjoint at hd
        rw [List.pairwise_iff_getElem] at hd
        rcases Nat.lt_or_gt_of_ne hne with h1 | h1
        · exact hd i a (by omega) ha' h1 x ⟨by rw [e1]; exact hb', hb⟩
        · exact hd a i ha' (by omega) h1 x ⟨hb, by rw [e1]; exact hb'⟩
      subst this
      simp [e2]

theorem labelAt_mem {ms : List Mask} {ls : List Nat} {x i : Nat} (h : labelAt (ms.zip ls) x = some i) : i ∈ ls := by
  unfold labelAt at h
  obtain ⟨⟨m, l⟩, hf, rfl⟩ := Option.map_eq_some_iff.1 h
  exact (List.of_mem_zip (List.mem_of_find?_eq_some hf)).2

theorem paired_lt {size : Nat} {ms : List Mask} {ls : List Nat} (h : SideOk size ms ls) {a : Nat} (ha : a < ls.length) : a < ms.length := by
  rcases h.paired with hp | ⟨rfl, rfl⟩
  · omega
  · simp at ha

/-! ## C37 -/

/-- **C37 (entries).** For disjoint masks with distinct labels, every entry of the matrix of an image is the
number of pixels with that ground truth label (or none) and that predicted label (or none). -/
theorem C37_entries {size : Nat} {gts pds : List Mask} {gl pl : List Nat} (hg : SideOk size gts gl) (hp : SideOk size pds pl)
    (hs : size < 2 ^ 64) (i j : Nat) :
    computeIntermediates size gts pds gl pl i j = pixels size (labelAt (gts.zip gl)) (labelAt (pds.zip pl)) i j := by
  have c0 : ∀ o : Option Nat, code o = 0 ↔ o = none := by rintro (_ | _) <;> simp [code]
  have c1 : ∀ (o : Option Nat) k, code o = k + 1 ↔ o = some k := by rintro (_ | _) <;> simp [code]
  have hzero : ∀ q : Nat → Prop, [DecidablePred q] → (∀ x, ¬ q x) → (List.range size).countP (fun x => decide (q x)) = 0 := by
    intro q _ h
    rw [List.countP_eq_zero]
    intro x _
    simpa using h x
  unfold pixels
  cases i with
  | zero =>
    cases j with
    | zero =>
      unfold computeIntermediates background
      apply List.countP_congr
      intro x _
      rw [decide_eq_true_eq, c0, c0, labelAt_none hg, labelAt_none hp]
      simp
    | succ j =>
      simp only [computeIntermediates]
      by_cases hj : j ∈ pl
      · obtain ⟨b, hb, rfl⟩ := List.getElem_of_mem hj
        have hb' := paired_lt hp hb
        rw [lastIdx_getElem hp.labels hb]
        dsimp only
        unfold unmatchedPd
        rw [List.getD_eq_getElem _ _ hb']
        have e : (List.range gts.length).map (fun a => intersection gts pds a b) = gts.map (fun m => (maskAnd pds[b] m).count true) := by
          rw [← map_range_getD]
          apply List.map_congr_left
          intro a _
          unfold intersection
          rw [List.getD_eq_getElem _ _ hb']
          unfold maskAnd
          rw [List.zipWith_comm]
          simp only [Bool.and_comm]
        rw [e, unmatched_eq (hp.lens _ (List.getElem_mem _)) hg.lens hg.disjoint hs]
        apply List.countP_congr
        intro x _
        rw [decide_eq_true_eq, c0, c1, labelAt_none hg, labelAt_some hp hb hb', Bool.and_eq_true, Bool.not_eq_true', and_comm]
      · rw [lastIdx_none hj]
        symm
        apply hzero
        rintro x ⟨_, h⟩
        rw [c1] at h
        exact hj (labelAt_mem h)
  | succ i =>
    by_cases hi : i ∈ gl
    · obtain ⟨a, ha, rfl⟩ := List.getElem_of_mem hi
      have ha' := paired_lt hg ha
      cases j with
      | zero =>
        simp only [computeIntermediates]
        rw [lastIdx_getElem hg.labels ha]
        dsimp only
        unfold unmatchedGt
        rw [List.getD_eq_getElem _ _ ha']
        have e : (List.range pds.length).map (fun b => intersection gts pds a b) = pds.map (fun m => (maskAnd gts[a] m).count true) := by
          rw [← map_range_getD]
          apply List.map_congr_left
          intro b _
          unfold intersection
          rw [List.getD_eq_getElem _ _ ha']
        rw [e, unmatched_eq (hg.lens _ (List.getElem_mem _)) hp.lens hp.disjoint hs]
        apply List.countP_congr
        intro x _
        rw [decide_eq_true_eq, c0, c1, labelAt_none hp, labelAt_some hg ha ha', Bool.and_eq_true, Bool.not_eq_true']
      | succ j =>
        by_cases hj : j ∈ pl
        · obtain ⟨b, hb, rfl⟩ := List.getElem_of_mem hj
          have hb' := paired_lt hp hb
          simp only [computeIntermediates]
          rw [lastIdx_getElem hg.labels ha, lastIdx_getElem hp.labels hb]
          dsimp only
          unfold intersection
          rw [List.getD_eq_getElem _ _ ha', List.getD_eq_getElem _ _ hb',
            intersection_eq (hg.lens _ (List.getElem_mem _)) (hp.lens _ (List.getElem_mem _))]
          apply List.countP_congr
          intro x _
          rw [decide_eq_true_eq, c1, c1, labelAt_some hg ha ha', labelAt_some hp hb hb', Bool.and_eq_true]
        · simp only [computeIntermediates]
          rw [lastIdx_getElem hg.labels ha, lastIdx_none hj]
          symm
          apply hzero
          rintro x ⟨_, h⟩
          rw [c1] at h
          exact hj (labelAt_mem h)
    · have : (List.range size).countP (fun x => decide (code (labelAt (gts.zip gl) x) = i + 1 ∧ code (labelAt (pds.zip pl) x) = j)) = 0 := by
        apply hzero
        rintro x ⟨h, _⟩
        rw [c1] at h
        exact hi (labelAt_mem h)
      rw [this]
      cases j with
      | zero =>
        simp only [computeIntermediates]
        rw [lastIdx_none hi]
      | succ j =>
        simp only [computeIntermediates]
        rw [lastIdx_none hi]

theorem sum_fiber (l : List Nat) (f : Nat → Nat) (q : Nat → Bool) (n : Nat) (hf : ∀ x ∈ l, f x ≤ n) :
    ((List.range (n + 1)).map (fun i => l.countP (fun x => decide (f x = i) && q x))).sum = l.countP q := by
  induction l with
  | nil => simp
  | cons x l ih =>
    rw [List.countP_cons, ← ih (fun y hy => hf y (by simp [hy]))]
    have hx := hf x (by simp)
    have hs : ∀ (F G : Nat → Nat) (L : List Nat), (L.map (fun i => F i + G i)).sum = (L.map F).sum + (L.map G).sum := by
      intro F G L
      induction L with
      | nil => rfl
      | cons a L ih => simp only [List.map_cons, List.sum_cons, ih]; omega
    simp only [List.countP_cons]
    rw [hs]
    congr 1
    cases hq : q x with
    | false => simp
    | true =>
      simp only [Bool.and_true, decide_eq_true_eq, if_true]
      have hone : ∀ (L : List Nat), L.Nodup → f x ∈ L → (L.map (fun i => if f x = i then 1 else 0)).sum = 1 := by
        intro L
        induction L with
        | nil => intro _ h; simp at h
        | cons a L ihL =>
          intro hn hm
          rw [List.nodup_cons] at hn
          rw [List.map_cons, List.sum_cons]
          by_cases h : f x = a
          · have : (L.map (fun i => if f x = i then 1 else 0)).sum = 0 := by
              rw [List.sum_eq_zero]
              intro y hy
              obtain ⟨i, hi, rfl⟩ := List.mem_map.1 hy
              rw [if_neg]
              rintro rfl
              exact hn.1 (h ▸ hi)
            rw [if_pos h, this]
          · rw [if_neg h, ihL hn.2 (by rcases List.mem_cons.1 hm with h' | h'; exact absurd h' h; exact h')]
      exact hone _ List.nodup_range (List.mem_range.2 (by omega))

/-- **C37 (total).** The entries of the matrix of an image sum to its number of pixels. -/
theorem C37_total {size : Nat} {gts pds : List Mask} {gl pl : List Nat} (hg : SideOk size gts gl) (hp : SideOk size pds pl)
    (hs : size < 2 ^ 64) (n : Nat) (hgn : ∀ v ∈ gl, v < n) (hpn : ∀ v ∈ pl, v < n) :
    ((List.range (n + 1)).map (fun i => ((List.range (n + 1)).map (fun j => computeIntermediates size gts pds gl pl i j)).sum)).sum = size := by
  have hb : ∀ (ms : List Mask) (ls : List Nat), (∀ v ∈ ls, v < n) → ∀ x, code (labelAt (ms.zip ls) x) ≤ n := by
    intro ms ls h x
    cases hl : labelAt (ms.zip ls) x with
    | none => simp [code]
    | some v =>
      have := h v (labelAt_mem hl)
      simp only [code]; omega
  have e1 : ∀ i, ((List.range (n + 1)).map (fun j => computeIntermediates size gts pds gl pl i j)).sum
      = (List.range size).countP (fun x => decide (code (labelAt (gts.zip gl) x) = i) && true) := by
    intro i
    rw [← sum_fiber (List.range size) (fun x => code (labelAt (pds.zip pl) x))
      (fun x => decide (code (labelAt (gts.zip gl) x) = i) && true) n (fun x _ => hb _ _ hpn x)]
    congr 1
    apply List.map_congr_left
    intro j _
    rw [C37_entries hg hp hs]
    unfold pixels
    apply List.countP_congr
    intro x _
    simp only [Bool.and_true, Bool.and_eq_true, decide_eq_true_eq]
    exact and_comm
  simp only [e1]
  rw [sum_fiber (List.range size) (fun x => code (labelAt (gts.zip gl) x)) (fun _ => true) n (fun x _ => hb _ _ hgn x)]
  simp

/-- **C37 (repeated label), violation.** Two disjoint masks with the same label in an image of two pixels:
only the last mask is counted, one pixel is lost. -/
theorem C37_repeated_violation :
    let m := computeIntermediates 2 [[true, false], [false, true]] [[false, false]] [0, 0] []
    m 1 0 = 1 ∧ m 0 0 = 0 ∧ ((List.range 2).map (fun i => ((List.range 2).map (fun j => m i j)).sum)).sum = 1 := by
  decide +kernel

/-- **C37 (overlap), violation.** The predictions that the constructor leaves overlapping (`C36_violation`) and a
ground truth on the common pixel: the pixel is counted twice as matched and 2^64 - 1 pixels of the ground
truth are reported as unmatched. -/
theorem C37_overlap_violation :
    let pds := masks (postInit [1, 2] threeHeap [] threeBits).1 threeBits
    let m := computeIntermediates 2 [[false, true]] pds [3] [0, 1, 2]
    m 4 2 = 1 ∧ m 4 3 = 1 ∧ m 4 0 = 2 ^ 64 - 1 := by
  decide +kernel

example : SideOk 3 [[true, false, false], [false, true, false]] [1, 0] ∧ SideOk 3 [List.replicate 3 false] [] := by
  refine ⟨⟨by decide, ?_, by decide, Or.inl rfl⟩, ⟨by decide, ?_, by decide, Or.inr ⟨rfl, rfl⟩⟩⟩
  · unfold Disjoint
    rw [List.pairwise_pair]
    intro x hx
    match x with
    | 0 => exact absurd hx.2 (by decide)
    | 1 => exact absurd hx.1 (by decide)
    | 2 => exact absurd hx.1 (by decide)
    | n + 3 => exact absurd hx.1 (by simp [bit])
  · unfold Disjoint
    simp

end Verif.Segmentation
