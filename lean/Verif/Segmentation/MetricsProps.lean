import Verif.Segmentation.LoaderProps
import Mathlib.Tactic.Linarith
import Mathlib.Tactic.FieldSimp
import Mathlib.Tactic.Ring
import Mathlib.Tactic.Positivity

/-! # C39: the metrics computed from a segmentation confusion matrix -/

namespace Verif.Segmentation

/-! ## Specification -/

/-- Sum of the numbers below `n`. -/
def upTo (n : Nat) (f : Nat → Nat) : Nat := ((List.range n).map f).sum

/-- Pixels of ground truth label `i`. -/
def gtPixels (n : Nat) (m : Nat → Nat → Nat) (i : Nat) : Nat := upTo (n + 1) (fun j => m (i + 1) j)

/-- Pixels of predicted label `j`. -/
def pdPixels (n : Nat) (m : Nat → Nat → Nat) (j : Nat) : Nat := upTo (n + 1) (fun i => m i (j + 1))

/-- All pixels. -/
def allPixels (n : Nat) (m : Nat → Nat → Nat) : Nat := upTo (n + 1) (fun i => upTo (n + 1) (fun j => m i j))

/-- A ratio, 0 for an empty denominator. -/
def ratio (a b : Nat) : Rat := if b = 0 then 0 else (a : Rat) / (b : Rat)

/-! ## Sums -/

theorem upTo_succ (n : Nat) (f : Nat → Nat) : upTo (n + 1) f = upTo n f + f n := by
  unfold upTo
  rw [List.range_succ, List.map_append, List.sum_append]
  simp

theorem le_upTo {n i : Nat} (f : Nat → Nat) (h : i < n) : f i ≤ upTo n f := by
  induction n with
  | zero => omega
  | succ n ih =>
    rw [upTo_succ]
    by_cases hi : i = n
    · subst hi; omega
    · have := ih (by omega); omega

theorem upTo_le {n : Nat} {f g : Nat → Nat} (h : ∀ i < n, f i ≤ g i) : upTo n f ≤ upTo n g := by
  induction n with
  | zero => simp [upTo]
  | succ n ih =>
    rw [upTo_succ, upTo_succ]
    have := ih (fun i hi => h i (by omega))
    have := h n (by omega)
    omega

theorem upTo_shift (n : Nat) (f : Nat → Nat) : upTo (n + 1) f = f 0 + upTo n (fun i => f (i + 1)) := by
  induction n with
  | zero => simp [upTo]
  | succ n ih => rw [upTo_succ, ih, upTo_succ]; omega

theorem upTo_add (n : Nat) (f g : Nat → Nat) : upTo n (fun i => f i + g i) = upTo n f + upTo n g := by
  induction n with
  | zero => simp [upTo]
  | succ n ih => rw [upTo_succ, ih, upTo_succ, upTo_succ]; omega

theorem upTo_zero (n : Nat) : upTo n (fun _ => 0) = 0 := by
  induction n with
  | zero => rfl
  | succ n ih => rw [upTo_succ, ih]

theorem upTo_comm (n k : Nat) (m : Nat → Nat → Nat) :
    upTo n (fun i => upTo k (fun j => m i j)) = upTo k (fun j => upTo n (fun i => m i j)) := by
  induction n with
  | zero => simp only [upTo, List.range_zero, List.map_nil, List.sum_nil]; symm; exact upTo_zero k
  | succ n ih =>
    rw [upTo_succ, ih, ← upTo_add]
    congr 1
    funext j
    rw [upTo_succ]

theorem gtPixels_le {n i : Nat} (m : Nat → Nat → Nat) (h : i < n) : gtPixels n m i ≤ allPixels n m :=
  le_upTo (fun i => upTo (n + 1) (fun j => m i j)) (by omega)

theorem pdPixels_le {n j : Nat} (m : Nat → Nat → Nat) (h : j < n) : pdPixels n m j ≤ allPixels n m := by
  unfold allPixels
  rw [upTo_comm]
  exact le_upTo (fun j => upTo (n + 1) (fun i => m i j)) (by omega)

theorem entry_le_gt {n i j : Nat} (m : Nat → Nat → Nat) (h : j ≤ n) : m (i + 1) j ≤ gtPixels n m i :=
  le_upTo (fun j => m (i + 1) j) (by omega)

theorem entry_le_pd {n i j : Nat} (m : Nat → Nat → Nat) (h : i ≤ n) : m i (j + 1) ≤ pdPixels n m j :=
  le_upTo (fun i => m i (j + 1)) (by omega)

theorem divide_eq (a b : Nat) : divide a b = ratio a b := by
  unfold divide ratio
  by_cases h : b = 0
  · subst h; simp
  · rw [if_neg h, if_pos]
    have : (1 : Rat) ≤ b := by exact_mod_cast Nat.one_le_iff_ne_zero.2 h
    linarith

theorem union_le {n i j : Nat} (m : Nat → Nat → Nat) (hi : i < n) (hj : j < n) :
    gtPixels n m i + pdPixels n m j - m (i + 1) (j + 1) ≤ allPixels n m := by
  have h1 : upTo (n + 1) (fun j' => m (i + 1) j') = gtPixels n m i := rfl
  have h2 : ∀ f : Nat → Nat, f (i + 1) + upTo (n + 1) (fun a => if a = i + 1 then 0 else f a) = upTo (n + 1) f := by
    intro f
    have : upTo (n + 1) (fun a => if a = i + 1 then f a else 0) = f (i + 1) := by
      unfold upTo; rw [sum_range_ite, if_pos (by omega)]
    rw [← this, ← upTo_add]
    congr 1
    funext a
    split <;> omega
  have h3 := h2 (fun i => upTo (n + 1) (fun j => m i j))
  have h4 := h2 (fun i => m i (j + 1))
  have h5 : upTo (n + 1) (fun a => if a = i + 1 then 0 else m a (j + 1)) ≤ upTo (n + 1) (fun a => if a = i + 1 then 0 else upTo (n + 1) (fun j => m a j)) := by
    apply upTo_le
    intro a _
    split
    · exact Nat.le_refl _
    · exact le_upTo (fun j => m a j) (by omega)
  unfold allPixels pdPixels
  rw [h1] at h3
  omega

/-! ## C39 -/

/-- **C39 (values).** With fewer than 2^64 pixels, precision, recall, the ratios of unmatched pixels, the IoU
of every pair of labels and the accuracy are the quotients of pixel counts that define them, and 0 when the
denominator is 0. -/
theorem C39_values {n : Nat} {m : Nat → Nat → Nat} (h : allPixels n m < 2 ^ 64) :
    (∀ i < n, precision n m i = ratio (m (i + 1) (i + 1)) (pdPixels n m i) ∧
      recall n m i = ratio (m (i + 1) (i + 1)) (gtPixels n m i) ∧
      unmatchedPrediction n m i = ratio (m 0 (i + 1)) (pdPixels n m i) ∧
      unmatchedGroundtruth n m i = ratio (m (i + 1) 0) (gtPixels n m i)) ∧
    (∀ i < n, ∀ j < n, iou n m i j = ratio (m (i + 1) (j + 1)) (gtPixels n m i + pdPixels n m j - m (i + 1) (j + 1))) ∧
    accuracy n m = ratio (upTo (n + 1) (fun i => m i i)) (allPixels n m) := by
  have hg : ∀ i < n, gtCounts n m i = gtPixels n m i := by
    intro i hi
    exact u64_small (x := gtPixels n m i) (lt_of_le_of_lt (gtPixels_le m hi) h)
  have hp : ∀ i < n, pdCounts n m i = pdPixels n m i := by
    intro i hi
    exact u64_small (x := pdPixels n m i) (lt_of_le_of_lt (pdPixels_le m hi) h)
  have hN : nPixels n m = allPixels n m := u64_small (x := allPixels n m) h
  have hd : upTo (n + 1) (fun i => m i i) ≤ allPixels n m := by
    apply upTo_le
    intro i hi
    exact le_upTo (fun j => m i j) hi
  refine ⟨?_, ?_, ?_⟩
  · intro i hi
    unfold precision recall unmatchedPrediction unmatchedGroundtruth
    rw [hg i hi, hp i hi]
    simp only [divide_eq, and_self]
  · intro i hi j hj
    unfold iou
    rw [hg i hi, hp j hj, divide_eq]
    have hle := union_le m hi hj
    have h1 := entry_le_gt (i := i) m (show j + 1 ≤ n by omega)
    have e : (((gtPixels n m i + pdPixels n m j : Nat) : Int) - ((m (i + 1) (j + 1) : Nat) : Int))
        = ((gtPixels n m i + pdPixels n m j - m (i + 1) (j + 1) : Nat) : Int) := by omega
    rw [e, u64_small (lt_of_le_of_lt hle h)]
  · unfold accuracy
    rw [hN]
    have hs := upTo_shift n (fun i => m i i)
    have e1 : u64 (((List.range n).map (fun i => m (i + 1) (i + 1))).sum : Nat) = upTo n (fun i => m (i + 1) (i + 1)) :=
      u64_small (x := upTo n (fun i => m (i + 1) (i + 1))) (by omega)
    dsimp only
    rw [e1, u64_small (by omega), Nat.add_comm, ← hs]
    unfold ratio
    by_cases h0 : allPixels n m = 0
    · rw [if_pos h0, if_neg (by omega)]
    · rw [if_neg h0, if_pos (by omega)]

theorem ratio_bounds {a b : Nat} (h : a ≤ b) : 0 ≤ ratio a b ∧ ratio a b ≤ 1 := by
  unfold ratio
  split
  · simp
  · rename_i hb
    have hb' : (0 : Rat) < b := by exact_mod_cast Nat.pos_of_ne_zero hb
    refine ⟨by positivity, ?_⟩
    rw [div_le_one hb']
    exact_mod_cast h

/-- **C39 (F1).** F1 is the harmonic mean, 0 if precision and recall are 0; it equals twice the matched pixels
over the pixels of both sides and it equals 2·IoU/(1 + IoU). -/
theorem C39_f1 {n : Nat} {m : Nat → Nat → Nat} (h : allPixels n m < 2 ^ 64) {i : Nat} (hi : i < n) :
    f1 n m i = ratio (2 * m (i + 1) (i + 1)) (gtPixels n m i + pdPixels n m i) ∧
    f1 n m i = 2 * iou n m i i / (1 + iou n m i i) := by
  obtain ⟨h1, h2, _⟩ := C39_values h
  obtain ⟨hp, hr, _, _⟩ := h1 i hi
  have hI := h2 i hi i hi
  have hg := entry_le_gt (i := i) m (show i + 1 ≤ n by omega)
  have hq := entry_le_pd (j := i) m (show i + 1 ≤ n by omega)
  unfold f1
  rw [hp, hr, hI]
  generalize m (i + 1) (i + 1) = t at *
  generalize gtPixels n m i = g at *
  generalize pdPixels n m i = p at *
  unfold ratio
  by_cases ht : t = 0
  · subst ht
    by_cases hg0 : g = 0 <;> by_cases hp0 : p = 0 <;> simp
  · have hg0 : g ≠ 0 := by omega
    have hp0 : p ≠ 0 := by omega
    have hu0 : g + p - t ≠ 0 := by omega
    have hgp : g + p ≠ 0 := by omega
    rw [if_neg hg0, if_neg hp0, if_neg hu0, if_neg hgp]
    have t' : (0 : Rat) < t := by exact_mod_cast Nat.pos_of_ne_zero ht
    have g' : (0 : Rat) < g := by exact_mod_cast Nat.pos_of_ne_zero hg0
    have p' : (0 : Rat) < p := by exact_mod_cast Nat.pos_of_ne_zero hp0
    have hu : ((g + p - t : Nat) : Rat) = g + p - t := by
      rw [Nat.cast_sub (by omega)]; push_cast; ring
    have u' : (0 : Rat) < g + p - t := by
      rw [← hu]; exact_mod_cast Nat.pos_of_ne_zero hu0
    rw [if_pos (by positivity), hu]
    push_cast
    have s1 : (t : Rat) / p + t / g = t * (g + p) / (g * p) := by field_simp
    have s2 : (1 : Rat) + t / (g + p - t) = (g + p) / (g + p - t) := by field_simp; ring
    rw [s1, s2]
    constructor
    · field_simp
    · field_simp

/-- **C39 (bounds).** All the metrics lie in [0, 1]; for each label IoU is at most precision, recall and F1. -/
theorem C39_bounds {n : Nat} {m : Nat → Nat → Nat} (h : allPixels n m < 2 ^ 64) :
    (∀ i < n, (0 ≤ precision n m i ∧ precision n m i ≤ 1) ∧ (0 ≤ recall n m i ∧ recall n m i ≤ 1) ∧
      (0 ≤ unmatchedPrediction n m i ∧ unmatchedPrediction n m i ≤ 1) ∧
      (0 ≤ unmatchedGroundtruth n m i ∧ unmatchedGroundtruth n m i ≤ 1) ∧
      (0 ≤ f1 n m i ∧ f1 n m i ≤ 1) ∧
      iou n m i i ≤ precision n m i ∧ iou n m i i ≤ recall n m i ∧ iou n m i i ≤ f1 n m i) ∧
    (∀ i < n, ∀ j < n, 0 ≤ iou n m i j ∧ iou n m i j ≤ 1) ∧
    0 ≤ accuracy n m ∧ accuracy n m ≤ 1 := by
  obtain ⟨h1, h2, h3⟩ := C39_values h
  have hiou : ∀ i < n, ∀ j < n, 0 ≤ iou n m i j ∧ iou n m i j ≤ 1 := by
    intro i hi j hj
    rw [h2 i hi j hj]
    have hg := entry_le_gt (i := i) m (show j + 1 ≤ n by omega)
    have hq := entry_le_pd (j := j) m (show i + 1 ≤ n by omega)
    exact ratio_bounds (by omega)
  refine ⟨?_, hiou, ?_⟩
  · intro i hi
    obtain ⟨hp, hr, hu, hv⟩ := h1 i hi
    have hI := h2 i hi i hi
    have hF := (C39_f1 h hi).2
    obtain ⟨i0, i1⟩ := hiou i hi i hi
    have hg := entry_le_gt (i := i) m (show i + 1 ≤ n by omega)
    have hq := entry_le_pd (j := i) m (show i + 1 ≤ n by omega)
    have hmono : ∀ t a b : Nat, t ≤ a → a ≤ b → ratio t b ≤ ratio t a := by
      intro t a b hta hab
      unfold ratio
      by_cases ha : a = 0
      · have : t = 0 := by omega
        subst this
        rw [if_pos ha]
        split <;> simp
      · rw [if_neg ha, if_neg (by omega)]
        have a' : (0 : Rat) < a := by exact_mod_cast Nat.pos_of_ne_zero ha
        apply div_le_div_of_nonneg_left (by positivity) a'
        exact_mod_cast hab
    have f0 : iou n m i i ≤ f1 n m i := by
      rw [hF, le_div_iff₀ (by linarith)]
      nlinarith
    have f1' : f1 n m i ≤ 1 := by
      rw [hF, div_le_one (by linarith)]
      linarith
    refine ⟨hp ▸ ratio_bounds hq, hr ▸ ratio_bounds hg, hu ▸ ratio_bounds (entry_le_pd m (Nat.zero_le _)),
      hv ▸ ratio_bounds (entry_le_gt m (Nat.zero_le _)), ⟨le_trans i0 f0, f1'⟩, ?_, ?_, f0⟩
    · rw [hI, hp]; exact hmono _ _ _ hq (by omega)
    · rw [hI, hr]; exact hmono _ _ _ hg (by omega)
  · rw [h3]
    apply ratio_bounds
    apply upTo_le
    intro i hi
    exact le_upTo (fun j => m i j) hi

theorem sum_ratio (n b : Nat) (hb : b ≠ 0) (f : Nat → Nat) :
    ((List.range n).map (fun j => ratio (f j) b)).sum = ratio (upTo n f) b := by
  induction n with
  | zero => simp [upTo, ratio]
  | succ n ih =>
    rw [List.range_succ, List.map_append, List.sum_append, ih, upTo_succ]
    unfold ratio
    simp only [if_neg hb, List.map_cons, List.map_nil, List.sum_cons, List.sum_nil, add_zero]
    push_cast
    ring

/-- **C39 (partition).** For a label with ground truth pixels, the unmatched ratio and the shares matched by each
predicted label sum to 1; the same for a label with predicted pixels. -/
theorem C39_shares {n : Nat} {m : Nat → Nat → Nat} (h : allPixels n m < 2 ^ 64) {i : Nat} (hi : i < n) :
    (gtPixels n m i ≠ 0 →
      unmatchedGroundtruth n m i + ((List.range n).map (fun j => ratio (m (i + 1) (j + 1)) (gtPixels n m i))).sum = 1) ∧
    (pdPixels n m i ≠ 0 →
      unmatchedPrediction n m i + ((List.range n).map (fun j => ratio (m (j + 1) (i + 1)) (pdPixels n m i))).sum = 1) := by
  obtain ⟨_, _, hu, hv⟩ := (C39_values h).1 i hi
  constructor
  · intro hb
    rw [hv, sum_ratio _ _ hb]
    have := upTo_shift n (fun j => m (i + 1) j)
    have e : gtPixels n m i = m (i + 1) 0 + upTo n (fun j => m (i + 1) (j + 1)) := this
    unfold ratio
    rw [if_neg hb, if_neg hb, ← add_div, ← Nat.cast_add, ← e]
    exact div_self (by exact_mod_cast hb)
  · intro hb
    rw [hu, sum_ratio _ _ hb]
    have := upTo_shift n (fun j => m j (i + 1))
    have e : pdPixels n m i = m 0 (i + 1) + upTo n (fun j => m (j + 1) (i + 1)) := this
    unfold ratio
    rw [if_neg hb, if_neg hb, ← add_div, ← Nat.cast_add, ← e]
    exact div_self (by exact_mod_cast hb)

/-- **C39 (mean IoU).** With at least one label the mean IoU is the average of the IoU of the labels and lies in
[0, 1]. -/
theorem C39_mean {n : Nat} {m : Nat → Nat → Nat} (h : allPixels n m < 2 ^ 64) (hn : n ≠ 0) :
    ∃ v, meanIou n m = some v ∧ v * n = ((List.range n).map (fun i => ratio (m (i + 1) (i + 1)) (gtPixels n m i + pdPixels n m i - m (i + 1) (i + 1)))).sum ∧
      0 ≤ v ∧ v ≤ 1 := by
  obtain ⟨_, h2, _⟩ := C39_values h
  have hn' : (0 : Rat) < n := by exact_mod_cast Nat.pos_of_ne_zero hn
  have hb := (C39_bounds h).2.1
  have hs : ∀ k ≤ n, 0 ≤ ((List.range k).map (fun i => iou n m i i)).sum ∧ ((List.range k).map (fun i => iou n m i i)).sum ≤ k := by
    intro k
    induction k with
    | zero => intro _; simp
    | succ k ih =>
      intro hk
      rw [List.range_succ, List.map_append, List.sum_append]
      have := ih (by omega)
      have := hb k (by omega) k (by omega)
      simp only [List.map_cons, List.map_nil, List.sum_cons, List.sum_nil, add_zero]
      push_cast
      constructor <;> linarith
  refine ⟨((List.range n).map (fun i => iou n m i i)).sum / n, ?_, ?_, ?_, ?_⟩
  · unfold meanIou
    rw [if_neg hn]
  · rw [div_mul_cancel₀ _ hn'.ne']
    congr 1
    apply List.map_congr_left
    intro i hi
    exact h2 i (List.mem_range.1 hi) i (List.mem_range.1 hi)
  · exact div_nonneg (hs n (Nat.le_refl _)).1 hn'.le
  · rw [div_le_one hn']
    exact (hs n (Nat.le_refl _)).2

/-- **C39 (no labels), violation.** For an image without masks the mean IoU is NaN. -/
theorem C39_mean_violation :
    let l := Loader.init.addAll [[⟨"a", 4, [], [], none⟩]]
    l.labels.length = 0 ∧ meanIou 0 (confusionMatrix 0 none l.rows) = none ∧ accuracy 0 (confusionMatrix 0 none l.rows) = 1 := by
  decide +kernel

/-- **C39 (wrap), violation.** The overlapping predictions of `C37_overlap_violation`: the number of ground truth
pixels wraps to 1 and the ratio of unmatched ground truth pixels is 2^64 - 1. -/
theorem C39_overlap_violation :
    let pds := masks (postInit [1, 2] threeHeap [] threeBits).1 threeBits
    let m := computeIntermediates 2 [[false, true]] pds [3] [0, 1, 2]
    gtCounts 4 m 3 = 1 ∧ unmatchedGroundtruth 4 m 3 = 2 ^ 64 - 1 := by
  decide +kernel

example : allPixels 3 (confusionMatrix 3 none (Loader.init.addAll sampleCalls).rows) = 5 ∧ (5 : Nat) < 2 ^ 64 ∧
    gtPixels 3 (confusionMatrix 3 none (Loader.init.addAll sampleCalls).rows) 1 = 1 := by decide +kernel

end Verif.Segmentation
