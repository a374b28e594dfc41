import Verif.Classification.CountsLemmas

/-! # C13, C14, C15: classification counts -/

namespace Verif.Classification

/-! ## From stored rows back to the classifications -/

theorem countP_zipIdx {β : Type} (q : β × Nat → Bool) (l : List β) :
    l.zipIdx.countP q = (List.range l.length).countP (fun i => (l[i]?).any (fun x => q (x, i))) := by
  induction l using List.reverseRecOn with
  | nil => rfl
  | append_singleton l x ih =>
    rw [List.zipIdx_append, List.countP_append, ih, List.length_append, List.length_singleton,
      List.range_succ, List.countP_append]
    congr 1
    · apply List.countP_congr
      intro i hi
      rw [List.getElem?_append_left (List.mem_range.1 hi)]
    · simp

theorem isWinner_argmax {c : Classif} (hne : c.scores ≠ []) (i : Nat) :
    IsWinner c i ↔ argmax c.scores = i := by
  obtain ⟨v, h1, h2, h3⟩ := argmax_spec c.scores hne
  constructor
  · rintro ⟨w, g1, g2, g3⟩
    rcases Nat.lt_trichotomy (argmax c.scores) i with h | h | h
    · exact absurd (g3 _ h v h1) (not_lt.2 (h2 w (List.mem_of_getElem? g1)))
    · exact h
    · exact absurd (h3 _ h w g1) (not_lt.2 (g2 v (List.mem_of_getElem? h1)))
  · rintro rfl
    exact ⟨v, h1, h2, h3⟩

/-- What the masks say about prediction `i` of a classification. -/
theorem mask_made {c : Classif} (hne : c.scores ≠ []) {t : Rat} {h : Bool} {i : Nat} {r : Row}
    (hs : c.scores[i]? = some r.score) (hw : r.winner = (argmax c.scores == i)) :
    scoreMask t h r = true ↔ Made t h c i := by
  unfold scoreMask Made
  rw [isclose_zero, isWinner_argmax hne, hw]
  constructor
  · intro hh
    simp only [Bool.and_eq_true, Bool.not_eq_true', decide_eq_false_iff_not, decide_eq_true_eq,
      Bool.or_eq_true, beq_iff_eq, not_le] at hh
    refine ⟨⟨r.score, hs, hh.1.2, hh.1.1⟩, ?_⟩
    intro ht
    rcases hh.2 with h' | h'
    · rw [ht] at h'; exact absurd h' (by simp)
    · exact h'
  · rintro ⟨⟨s, h1, h2, h3⟩, h4⟩
    rw [hs] at h1
    simp only [Option.some.injEq] at h1
    subst h1
    simp only [Bool.and_eq_true, Bool.not_eq_true', decide_eq_false_iff_not, decide_eq_true_eq,
      Bool.or_eq_true, beq_iff_eq, not_le]
    refine ⟨⟨h3, h2⟩, ?_⟩
    cases h with
    | false => exact Or.inl rfl
    | true => exact Or.inr (h4 rfl)

/-- The label table covers a classification and is small enough for exact comparisons. -/
structure Covers (L : List String) (c : Classif) : Prop where
  gt : c.gt ∈ L
  preds : ∀ p ∈ c.preds, p ∈ L
  valid : c.preds.length = c.scores.length
  ne : c.preds ≠ []

theorem Covers.scores_ne {L : List String} {c : Classif} (h : Covers L c) : c.scores ≠ [] := by
  intro h0
  have := h.valid
  rw [h0] at this
  exact h.ne (List.length_eq_zero_iff.1 this)

theorem idxOf_lt' {L : List String} {v : String} (h : v ∈ L) : L.idxOf v < L.length :=
  List.idxOf_lt_length_iff.2 h

/-- Counts of one block. -/
theorem cnt_block {L : List String} {c : Classif} (hc : Covers L c) (hL : L.length ≤ 100000)
    (k : Nat) (h : Bool) (t : Rat) {l : String} (hl : l ∈ L) :
    cnt (rowsOf L k c) h t (L.idxOf l : Nat)
      = ⟨specTP [c] t h l, specFP [c] t h l, specFN [c] t h l, specTN [c] t h l⟩ := by
  classical
  have hlm : ∀ p ∈ c.preds, isclose ((L.idxOf c.gt : Nat) : Int) ((L.idxOf p : Nat) : Int)
      = decide (c.gt = p) := by
    intro p hp
    have h1 := idxOf_lt' (hc.preds p hp)
    rw [isclose_ids (by omega) (by omega)]
    congr 1
    rw [eq_iff_iff, Int.natCast_inj, List.idxOf_inj hc.gt]
  have hid : ∀ p ∈ L, ((L.idxOf p : Nat) : Int) = ((L.idxOf l : Nat) : Int) ↔ p = l := by
    intro p hp
    rw [Int.natCast_inj, List.idxOf_inj hp]
  have hlen : (c.preds.zip c.scores).length = c.preds.length := by
    rw [List.length_zip, ← hc.valid, Nat.min_self]
  have hdat : ∀ r ∈ rowsOf L k c, r.datum = k := by
    intro r hr
    simp only [rowsOf, List.mem_map] at hr
    obtain ⟨x, _, rfl⟩ := hr
    rfl
  -- evaluation of a row predicate
  have hscore : ∀ (i : Nat) (p : String) (s : Rat), (c.preds.zip c.scores)[i]? = some (p, s) →
      scoreMask t h
        { uid := c.uid, info := c.info, datum := k, gtLabel := c.gt, gt := L.idxOf c.gt,
          pdLabel := p, pd := L.idxOf p, score := s, winner := argmax c.scores == i,
          isMatch := decide (c.gt = p) } = decide (Made t h c i) := by
    intro i p s hz
    have := (List.getElem?_zip_eq_some.1 hz).2
    rw [Bool.eq_iff_iff, decide_eq_true_eq]
    exact mask_made hc.scores_ne this rfl
  have hcount : ∀ (m : Row → Bool) (Q : Nat → String → Bool),
      (∀ i p s, (c.preds.zip c.scores)[i]? = some (p, s) → m
        { uid := c.uid, info := c.info, datum := k, gtLabel := c.gt, gt := L.idxOf c.gt,
          pdLabel := p, pd := L.idxOf p, score := s, winner := argmax c.scores == i,
          isMatch := decide (c.gt = p) } = Q i p) →
      (rowsOf L k c).countP m
        = (List.range c.preds.length).countP (fun i => (c.preds[i]?).any (Q i)) := by
    intro m Q hQ
    rw [rowsOf, List.countP_map, countP_zipIdx, hlen]
    apply List.countP_congr
    intro i hi
    have hi' : i < (c.preds.zip c.scores).length := by rw [hlen]; exact List.mem_range.1 hi
    obtain ⟨⟨p, s⟩, hz⟩ : ∃ q, (c.preds.zip c.scores)[i]? = some q :=
      ⟨_, List.getElem?_eq_getElem hi'⟩
    have hp := (List.getElem?_zip_eq_some.1 hz).1
    rw [hz, hp]
    simp only [Option.any_some, Function.comp]
    rw [hQ i p s hz]
  have hany : ∀ (m : Row → Bool) (Q : Nat → String → Prop),
      (∀ i p s, (c.preds.zip c.scores)[i]? = some (p, s) → (m
        { uid := c.uid, info := c.info, datum := k, gtLabel := c.gt, gt := L.idxOf c.gt,
          pdLabel := p, pd := L.idxOf p, score := s, winner := argmax c.scores == i,
          isMatch := decide (c.gt = p) } = true ↔ Q i p)) →
      ((rowsOf L k c).any m = true ↔ ∃ i p, c.preds[i]? = some p ∧ Q i p) := by
    intro m Q hQ
    rw [List.any_eq_true]
    constructor
    · rintro ⟨r, hr, hm⟩
      simp only [rowsOf, List.mem_map] at hr
      obtain ⟨⟨⟨p, s⟩, i⟩, hz, rfl⟩ := hr
      have hz' := List.mem_zipIdx_iff_getElem?.1 hz
      exact ⟨i, p, (List.getElem?_zip_eq_some.1 hz').1, (hQ i p s hz').1 hm⟩
    · rintro ⟨i, p, hp, hq⟩
      have hi : i < c.preds.length := by
        by_contra hcon
        rw [List.getElem?_eq_none (by omega)] at hp
        exact absurd hp (by simp)
      have hi' : i < (c.preds.zip c.scores).length := by rw [hlen]; exact hi
      obtain ⟨⟨p', s⟩, hz⟩ : ∃ q, (c.preds.zip c.scores)[i]? = some q :=
        ⟨_, List.getElem?_eq_getElem hi'⟩
      have hp' := (List.getElem?_zip_eq_some.1 hz).1
      rw [hp] at hp'
      simp only [Option.some.injEq] at hp'
      subst hp'
      refine ⟨_, ?_, (hQ i p s hz).2 hq⟩
      simp only [rowsOf, List.mem_map]
      exact ⟨((p, s), i), List.mem_zipIdx_iff_getElem?.2 hz, rfl⟩
  unfold cnt
  rw [dc_block hdat, dc_block hdat]
  congr 1
  · -- true positives
    rw [hcount _ (fun i p => decide (c.gt = p ∧ Made t h c i ∧ p = l))]
    · simp only [specTP, List.map_cons, List.map_nil, List.sum_cons, List.sum_nil, Nat.add_zero]
      apply List.countP_congr
      intro i hi
      rw [Option.any_eq_true, decide_eq_true_eq]
      constructor
      · rintro ⟨p, hp, hq⟩
        rw [decide_eq_true_eq] at hq
        obtain ⟨a, b, rfl⟩ := hq
        exact ⟨a, hp, b⟩
      · rintro ⟨a, b, d⟩
        exact ⟨l, b, by rw [decide_eq_true_eq]; exact ⟨a, d, rfl⟩⟩
    · intro i p s hz
      have hp : p ∈ c.preds := List.mem_of_getElem? (List.getElem?_zip_eq_some.1 hz).1
      simp only [tpMask, labelMatch]
      rw [hscore i p s hz]
      simp only [hlm p hp, hid p (hc.preds p hp)]
      rw [Bool.eq_iff_iff]
      simp only [Bool.and_eq_true, decide_eq_true_eq]
      tauto
  · -- false positives
    rw [hcount _ (fun i p => decide (c.gt ≠ p ∧ Made t h c i ∧ p = l))]
    · simp only [specFP, List.map_cons, List.map_nil, List.sum_cons, List.sum_nil, Nat.add_zero]
      apply List.countP_congr
      intro i hi
      rw [Option.any_eq_true, decide_eq_true_eq]
      constructor
      · rintro ⟨p, hp, hq⟩
        rw [decide_eq_true_eq] at hq
        obtain ⟨a, b, rfl⟩ := hq
        exact ⟨a, hp, b⟩
      · rintro ⟨a, b, d⟩
        exact ⟨l, b, by rw [decide_eq_true_eq]; exact ⟨a, d, rfl⟩⟩
    · intro i p s hz
      have hp : p ∈ c.preds := List.mem_of_getElem? (List.getElem?_zip_eq_some.1 hz).1
      simp only [fpMask, labelMatch]
      rw [hscore i p s hz]
      simp only [hlm p hp, hid p (hc.preds p hp)]
      rw [Bool.eq_iff_iff]
      simp only [Bool.and_eq_true, decide_eq_true_eq, Bool.not_eq_true', decide_eq_false_iff_not]
      have : (0 : Int) ≤ ((L.idxOf p : Nat) : Int) := by omega
      constructor
      · rintro ⟨⟨⟨a, b⟩, _⟩, d⟩; exact ⟨a, b, d⟩
      · rintro ⟨a, b, d⟩; exact ⟨⟨⟨a, b⟩, this⟩, d⟩
  · -- false negatives
    have key := hany (fun r => fnMask t h r && decide (r.gt = ((L.idxOf l : Nat) : Int)))
      (fun i p => c.gt = l ∧ ((p = l ∧ ¬ Made t h c i) ∨ (p ≠ l ∧ Made t h c i))) ?_
    · simp only [specFN, List.countP_cons, List.countP_nil, Nat.zero_add]
      congr 1
      rw [eq_iff_iff, key, decide_eq_true_eq]
      constructor
      · rintro ⟨i, p, h1, h2, h3⟩; exact ⟨h2, i, p, h1, h3⟩
      · rintro ⟨h2, i, p, h1, h3⟩; exact ⟨i, p, h1, h2, h3⟩
    · intro i p s hz
      have hp : p ∈ c.preds := List.mem_of_getElem? (List.getElem?_zip_eq_some.1 hz).1
      simp only [fnMask, labelMatch]
      rw [hscore i p s hz]
      simp only [hlm p hp, hid c.gt hc.gt]
      simp only [Bool.and_eq_true, Bool.or_eq_true, decide_eq_true_eq, Bool.not_eq_true',
        decide_eq_false_iff_not]
      have : (0 : Int) ≤ ((L.idxOf c.gt : Nat) : Int) := by omega
      constructor
      · rintro ⟨⟨hor, _⟩, rfl⟩
        refine ⟨rfl, ?_⟩
        rcases hor with ⟨a, b⟩ | ⟨a, b⟩
        · exact Or.inl ⟨a.symm, b⟩
        · exact Or.inr ⟨fun e => a e.symm, b⟩
      · rintro ⟨rfl, hor⟩
        refine ⟨⟨?_, this⟩, rfl⟩
        rcases hor with ⟨a, b⟩ | ⟨a, b⟩
        · exact Or.inl ⟨a.symm, b⟩
        · exact Or.inr ⟨fun e => a e.symm, b⟩
  · -- true negatives
    have key := hany (fun r => tnMask t h r && decide (r.pd = ((L.idxOf l : Nat) : Int)))
      (fun i p => c.gt ≠ p ∧ ¬ Made t h c i ∧ p = l) ?_
    · simp only [specTN, List.countP_cons, List.countP_nil, Nat.zero_add]
      congr 1
      rw [eq_iff_iff, key, decide_eq_true_eq]
      constructor
      · rintro ⟨i, p, h1, h2, h3, rfl⟩; exact ⟨h2, i, h1, h3⟩
      · rintro ⟨h2, i, h1, h3⟩; exact ⟨i, l, h1, h2, h3, rfl⟩
    · intro i p s hz
      have hp : p ∈ c.preds := List.mem_of_getElem? (List.getElem?_zip_eq_some.1 hz).1
      simp only [tnMask, labelMatch]
      rw [hscore i p s hz]
      simp only [hlm p hp, hid p (hc.preds p hp)]
      simp only [Bool.and_eq_true, decide_eq_true_eq, Bool.not_eq_true', decide_eq_false_iff_not]
      tauto

theorem spec_cons (c : Classif) (cs : List Classif) (t : Rat) (h : Bool) (l : String) :
    (⟨specTP (c :: cs) t h l, specFP (c :: cs) t h l, specFN (c :: cs) t h l,
      specTN (c :: cs) t h l⟩ : Counts)
    = (⟨specTP [c] t h l, specFP [c] t h l, specFN [c] t h l, specTN [c] t h l⟩ : Counts).add
      ⟨specTP cs t h l, specFP cs t h l, specFN cs t h l, specTN cs t h l⟩ := by
  simp only [specTP, specFP, specFN, specTN, Counts.add, List.map_cons, List.map_nil, List.sum_cons,
    List.sum_nil, List.countP_cons, List.countP_nil, Counts.mk.injEq]
  exact ⟨by omega, by omega, by omega, by omega⟩

theorem cnt_blocks {L : List String} (hL : L.length ≤ 100000) {l : String} (hl : l ∈ L)
    (h : Bool) (t : Rat) (cs : List Classif) : ∀ n, (∀ c ∈ cs, Covers L c) →
    cnt ((cs.zipIdx n).map (fun x => rowsOf L x.2 x.1)).flatten h t (L.idxOf l : Nat)
      = ⟨specTP cs t h l, specFP cs t h l, specFN cs t h l, specTN cs t h l⟩ := by
  induction cs with
  | nil => intro n _; rfl
  | cons c cs ih =>
    intro n hc
    rw [List.zipIdx_cons, List.map_cons, List.flatten_cons, cnt_append, spec_cons,
      cnt_block (hc c (by simp)) hL n h t hl, ih (n + 1) (fun d hd => hc d (by simp [hd]))]
    intro x hx y hy
    simp only [rowsOf, List.mem_map] at hx
    obtain ⟨_, _, rfl⟩ := hx
    simp only [List.mem_flatten, List.mem_map] at hy
    obtain ⟨_, ⟨⟨d, k⟩, hk, rfl⟩, hy⟩ := hy
    simp only [rowsOf, List.mem_map] at hy
    obtain ⟨_, _, rfl⟩ := hy
    have := (List.mem_zipIdx hk).1
    simp only [ne_eq, Int.natCast_inj]
    omega

/-- What the loader guarantees to the evaluator. -/
theorem covers_reach (calls : List (List Classif)) (hv : ∀ c ∈ calls.flatten, c.valid = true) :
    ∀ c ∈ history calls, Covers (Loader.init.addAll calls).labels c := by
  intro c hc
  have i := linv_reach calls
  obtain ⟨u1, u2⟩ := i.used c hc
  obtain ⟨cs, hcs, hacc⟩ := List.mem_flatMap.1 hc
  have hval : c.preds.length = c.scores.length := by
    have : c ∈ cs := (List.takeWhile_prefix _).subset hacc
    have := hv c (List.mem_flatten.2 ⟨cs, hcs, this⟩)
    simpa [Classif.valid] using this
  refine ⟨u1, ?_, hval, ?_⟩
  · intro p hp
    obtain ⟨i, hi⟩ := List.mem_iff_getElem?.1 hp
    have hlt : i < c.scores.length := by
      rw [← hval]
      by_contra hcon
      rw [List.getElem?_eq_none (by omega)] at hi
      exact absurd hi (by simp)
    have hz : (c.preds.zip c.scores)[i]? = some (p, c.scores[i]) :=
      List.getElem?_zip_eq_some.2 ⟨hi, List.getElem?_eq_getElem hlt⟩
    exact u2 _ (List.mem_of_getElem? hz)
  · have := List.mem_takeWhile_imp hacc
    intro h0
    simp [h0] at this

theorem inRange_reach (calls : List (List Classif)) :
    InRange (Loader.init.addAll calls).rows.flatten (Loader.init.addAll calls).labels.length := by
  intro r hr
  obtain ⟨b, hb, hr⟩ := List.mem_flatten.1 hr
  obtain ⟨⟨h1, h2⟩, ⟨h3, h4⟩, _⟩ := (C12_ids calls).2.2.1 b hb r hr
  have g : ∀ z : Int, 0 ≤ z → ∀ v, (Loader.init.addAll calls).labels[z.toNat]? = some v →
      z < (Loader.init.addAll calls).labels.length := by
    intro z hz v hv
    by_contra hcon
    rw [List.getElem?_eq_none (by omega)] at hv
    exact absurd hv (by simp)
  exact ⟨⟨h1, g _ h1 _ h2⟩, ⟨h3, g _ h3 _ h4⟩⟩

/-! ## The properties -/

/-- **C13 and C15.** For every history of `add_data` calls (with at most 100000 labels), however the
rows are ordered within and cut into tables between datums, every list of thresholds and both
`hardmax` settings, the evaluator's counts are, label by label, those of the definition over the
classifications that were added. -/
theorem C13_counts (calls : List (List Classif)) (hv : ∀ c ∈ calls.flatten, c.valid = true)
    (hL : (Loader.init.addAll calls).labels.length ≤ 100000) (frags : List (List Row))
    (hf : FragmentsOf frags (Loader.init.addAll calls).rows.flatten) (ts : List Rat) (hm : Bool) :
    evalCounts frags ts hm (Loader.init.addAll calls).labels.length
      = some (ts.map (fun t => (Loader.init.addAll calls).labels.map (fun l =>
          ⟨specTP (history calls) t hm l, specFP (history calls) t hm l,
            specFN (history calls) t hm l, specTN (history calls) t hm l⟩))) := by
  rw [evalCounts_eq (inRange_reach calls) hf]
  congr 1
  apply List.map_congr_left
  intro t _
  have hnd : (Loader.init.addAll calls).labels.Nodup := (linv_reach calls).nodup
  rw [rows_reach calls]
  refine List.ext_getElem (by simp) ?_
  intro j h1 h2
  have hj : j < (Loader.init.addAll calls).labels.length := by simpa using h2
  have hmem := List.getElem_mem hj
  rw [List.getElem_map, List.getElem_map, List.getElem_range]
  rw [← cnt_blocks hL hmem hm t (history calls) 0 (covers_reach calls hv)]
  rw [hnd.idxOf_getElem j hj]

/-- **C15.** Any two ways of cutting (between datums) and ordering the same rows give the same counts,
hence the same precision, recall, F1 and accuracy. No bound on the number of labels. -/
theorem C15_fragmentation (calls : List (List Classif)) (f₁ f₂ : List (List Row))
    (h₁ : FragmentsOf f₁ (Loader.init.addAll calls).rows.flatten)
    (h₂ : FragmentsOf f₂ (Loader.init.addAll calls).rows.flatten) (ts : List Rat) (hm : Bool) :
    evalCounts f₁ ts hm (Loader.init.addAll calls).labels.length
      = evalCounts f₂ ts hm (Loader.init.addAll calls).labels.length := by
  rw [evalCounts_eq (inRange_reach calls) h₁, evalCounts_eq (inRange_reach calls) h₂]

/-! ## C14 -/

/-- The full statement of C14 for histories satisfying `P`: with winner-take-all counting,
TP + FN of a label is the number of datums with that ground truth. -/
def RecallDenominators (P : List Classif → Prop) : Prop :=
  ∀ calls : List (List Classif), (∀ c ∈ calls.flatten, c.valid = true) →
    (Loader.init.addAll calls).labels.length ≤ 100000 → P (history calls) →
    ∀ frags, FragmentsOf frags (Loader.init.addAll calls).rows.flatten →
    ∀ (t : Rat) (l : String), l ∈ (Loader.init.addAll calls).labels →
    ∃ row c, evalCounts frags [t] true (Loader.init.addAll calls).labels.length = some [row] ∧
      row[(Loader.init.addAll calls).labels.idxOf l]? = some c ∧
      c.tp + c.fn = (history calls).countP (fun c => decide (c.gt = l))

theorem countP_range_unique {n w : Nat} (hw : w < n) {p : Nat → Bool} (h : ∀ i, p i = true → i = w) :
    (List.range n).countP p = if p w then 1 else 0 := by
  by_cases hp : p w = true
  · rw [if_pos hp]
    have : (List.range n).countP p = (List.range n).count w := by
      rw [List.count]
      apply List.countP_congr
      intro i _
      constructor
      · intro hi; simp [h i hi]
      · intro hi
        have : i = w := by simpa using hi
        rw [this]; exact hp
    rw [this]
    exact List.count_eq_one_of_mem List.nodup_range (List.mem_range.2 hw)
  · rw [if_neg hp, List.countP_eq_zero]
    intro i _ hi
    exact hp (h i hi ▸ hi)

theorem tp_fn_single {c : Classif} (hval : c.preds.length = c.scores.length) (hin : c.gt ∈ c.preds)
    (hnd : c.preds.Nodup) (t : Rat) (l : String) :
    specTP [c] t true l + specFN [c] t true l = if c.gt = l then 1 else 0 := by
  classical
  have hne : c.scores ≠ [] := by
    intro h0
    rw [h0] at hval
    rw [List.length_eq_zero_iff.1 hval] at hin
    exact absurd hin (by simp)
  have hw : ∀ i, Made t true c i → i = argmax c.scores := by
    rintro i ⟨_, h⟩
    exact ((isWinner_argmax hne i).1 (h rfl)).symm
  have hwlt : argmax c.scores < c.preds.length := by
    obtain ⟨v, h1, _⟩ := argmax_spec c.scores hne
    rw [hval]
    by_contra hc
    rw [List.getElem?_eq_none (by omega)] at h1
    exact absurd h1 (by simp)
  simp only [specTP, specFN, List.map_cons, List.map_nil, List.sum_cons, List.sum_nil,
    List.countP_cons, List.countP_nil, Nat.add_zero, Nat.zero_add]
  rw [countP_range_unique hwlt (by
    intro i hi; rw [decide_eq_true_eq] at hi; exact hw i hi.2.2)]
  simp only [decide_eq_true_eq]
  by_cases hg : c.gt = l
  · rw [if_pos hg]
    by_cases hmade : c.preds[argmax c.scores]? = some l ∧ Made t true c (argmax c.scores)
    · rw [if_pos ⟨hg, hmade⟩, if_neg]
      rintro ⟨_, i, P, hi, h⟩
      rcases h with ⟨rfl, h⟩ | ⟨hP, h⟩
      · have : i = argmax c.scores :=
          hnd.getElem_inj_iff.1 (Option.some.inj
            ((List.getElem?_eq_getElem (by
              by_contra hc
              rw [List.getElem?_eq_none (by omega)] at hi
              exact absurd hi (by simp))).symm.trans
            (hi.trans (hmade.1.symm.trans (List.getElem?_eq_getElem hwlt)))))
        exact h (this ▸ hmade.2)
      · have := hw i h
        rw [this, hmade.1] at hi
        exact hP (Option.some.inj hi).symm
    · rw [if_neg (fun h => hmade h.2), if_pos]
      refine ⟨hg, ?_⟩
      by_cases hm : Made t true c (argmax c.scores)
      · refine ⟨argmax c.scores, c.preds[argmax c.scores], List.getElem?_eq_getElem hwlt, Or.inr ⟨?_, hm⟩⟩
        intro hP
        exact hmade ⟨by rw [List.getElem?_eq_getElem hwlt, hP], hm⟩
      · rw [hg] at hin
        obtain ⟨i, hi⟩ := List.mem_iff_getElem?.1 hin
        refine ⟨i, l, hi, Or.inl ⟨rfl, ?_⟩⟩
        intro hmi
        exact hm (hw i hmi ▸ hmi)
  · rw [if_neg hg, if_neg (fun h => hg h.1), if_neg (fun h => hg h.1)]

theorem tp_fn_sum (cs : List Classif) (h : ∀ c ∈ cs, c.preds.length = c.scores.length ∧
    c.gt ∈ c.preds ∧ c.preds.Nodup) (t : Rat) (l : String) :
    specTP cs t true l + specFN cs t true l = cs.countP (fun c => decide (c.gt = l)) := by
  induction cs with
  | nil => rfl
  | cons c cs ih =>
    obtain ⟨h1, h2, h3⟩ := h c (by simp)
    have e := spec_cons c cs t true l
    simp only [Counts.add, Counts.mk.injEq] at e
    have := tp_fn_single h1 h2 h3 t l
    have := ih (fun d hd => h d (by simp [hd]))
    rw [e.1, e.2.2.1, List.countP_cons]
    simp only [decide_eq_true_eq]
    omega

/-- **C14 (partial).** It holds when every datum scores its ground-truth label and scores no label
twice. -/
theorem C14_recall_denominator_partial : RecallDenominators (fun cs =>
    ∀ c ∈ cs, c.gt ∈ c.preds ∧ c.preds.Nodup) := by
  intro calls hv hL hP frags hf t l hl
  have h := C13_counts calls hv hL frags hf [t] true
  refine ⟨_, ⟨specTP (history calls) t true l, specFP (history calls) t true l,
      specFN (history calls) t true l, specTN (history calls) t true l⟩, h, ?_, ?_⟩
  · rw [List.getElem?_map, List.getElem?_idxOf hl]; rfl
  · apply tp_fn_sum
    intro c hc
    exact ⟨(covers_reach calls hv c hc).valid, hP c hc⟩

/-- **C14, violated.** A datum whose ground truth is not among its predictions and whose winner does
not reach the threshold is in no count at all. -/
theorem C14_violation : ¬ RecallDenominators (fun _ => True) := by
  classical
  intro h
  have hv : ∀ c ∈ [[(⟨"d", "a", ["b"], [3/10], ""⟩ : Classif)]].flatten, c.valid = true := by decide
  have hlab : (Loader.init.addAll [[(⟨"d", "a", ["b"], [3/10], ""⟩ : Classif)]]).labels = ["a", "b"] := by
    decide +kernel
  obtain ⟨row, c, h1, h2, h3⟩ := h [[⟨"d", "a", ["b"], [3/10], ""⟩]] hv (by rw [hlab]; decide) trivial
    [(Loader.init.addAll [[(⟨"d", "a", ["b"], [3/10], ""⟩ : Classif)]]).rows.flatten]
    ⟨by simp, by simp⟩ (1/2) "a" (by rw [hlab]; decide)
  have h4 : evalCounts [(Loader.init.addAll [[(⟨"d", "a", ["b"], [3/10], ""⟩ : Classif)]]).rows.flatten]
      [1/2] true 2 = some [[⟨0, 0, 0, 0⟩, ⟨0, 0, 0, 1⟩]] := by decide +kernel
  rw [hlab] at h1 h2
  have h5 : row = [⟨0, 0, 0, 0⟩, ⟨0, 0, 0, 1⟩] := by
    have := h1.symm.trans h4
    simpa using this
  subst h5
  have h6 : c = ⟨0, 0, 0, 0⟩ := by
    have : (["a", "b"] : List String).idxOf "a" = 0 := by decide
    rw [this] at h2
    simpa using h2.symm
  subst h6
  revert h3
  decide +kernel

/-! ## Non-vacuity -/

/-- Three datums, two calls, ties, a zero score. -/
def sample : List (List Classif) :=
  [[⟨"d0", "cat", ["cat", "dog"], [1/2, 1/2], ""⟩, ⟨"d1", "dog", ["cat", "dog"], [9/10, 1/10], ""⟩],
   [⟨"d2", "dog", ["dog", "bird"], [0, 4/5], ""⟩]]

example : (∀ c ∈ sample.flatten, c.valid = true) ∧
    (∀ c ∈ history sample, c.gt ∈ c.preds ∧ c.preds.Nodup) ∧
    (Loader.init.addAll sample).labels = ["cat", "dog", "bird"] := by decide +kernel

/-- Two tables, the second one holding two datums in another order. -/
example : FragmentsOf
    [(Loader.init.addAll sample).rows.getD 1 [],
     (Loader.init.addAll sample).rows.getD 2 [] ++ (Loader.init.addAll sample).rows.getD 0 []]
    (Loader.init.addAll sample).rows.flatten :=
  ⟨by decide +kernel, by decide +kernel⟩

example : evalCounts
    [(Loader.init.addAll sample).rows.getD 1 [],
     (Loader.init.addAll sample).rows.getD 2 [] ++ (Loader.init.addAll sample).rows.getD 0 []]
    [0, 17/20] true 3
    = some [[⟨1, 1, 0, 0⟩, ⟨0, 0, 2, 1⟩, ⟨0, 1, 0, 0⟩], [⟨0, 1, 1, 0⟩, ⟨0, 0, 2, 1⟩, ⟨0, 0, 0, 1⟩]] := by
  decide +kernel

end Verif.Classification
