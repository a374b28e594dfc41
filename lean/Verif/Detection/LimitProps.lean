import Verif.Detection.ThresholdProps
import Verif.Detection.CurveProps

/-!
# C120: average precision and average recall (`object_detection/computation.py` 534-612, `object_detection/utilities.py` 10-150)
-/

namespace Verif.Detection

open Verif.Shared (extractLabels)

/-! ## Specification -/

/-- The score threshold leaves out no prediction of the label, except those that count as score 0. -/
def LeavesOutNone (H : History) (v : String) (s : Rat) : Prop :=
  ∀ x ∈ H, ∀ a ∈ x.1.pds, ∀ c, (v, c) ∈ a.labels.zip a.scores → EPSILON < c → s ≤ c

/-! ## The curve ends at the recall that is reached -/

section

variable {tables : List (List Row)} (hc : CacheOk tables) {out : List RRow} (h : RankedOf tables out) {t : Rat} (ht : 0 < t) (l : Int)
  (chunks : List (List RRow)) (hch : chunks.flatten = out) {s : Rat} (hs : ∀ r ∈ out, r.row.pl = l → EPSILON < r.row.score → s ≤ r.row.score)

include hc h ht hch hs

theorem all_hits : ((out.filter (fun r => decide (r.row.pl = l))).map (tpOuter t)).count true = tpTotal t s chunks l := by
  rw [tpTotal_eq hc h ht s l chunks hch, List.count_eq_countP, List.countP_map, List.countP_eq_length_filter, List.filter_filter]
  congr 1
  apply List.filter_congr
  intro r hr
  by_cases hl : r.row.pl = l
  · rw [tpInner_active hl]
    unfold tpOuter scoreNonzero
    rw [Bool.eq_iff_iff]
    simp only [Function.comp, beq_iff_eq, Bool.and_eq_true, decide_eq_true_eq]
    constructor
    · rintro ⟨⟨⟨h1, h2⟩, h3⟩, _⟩
      exact ⟨hl, ⟨hl, hs r hr hl h1, h1⟩, ⟨h1, h2⟩, h3⟩
    · rintro ⟨_, _, h1, h3⟩
      exact ⟨⟨h1, h3⟩, hl⟩
  · simp [hl]

/-- The curve is 0 at the recall levels that are not reached. -/
theorem curve_ends (j : Nat) (hj : j < (interpolated (curveOf t (gtCount tables l) l chunks).prec).length)
    (h0 : (interpolated (curveOf t (gtCount tables l) l chunks).prec)[j] ≠ 0) :
    (j : Rat) / 100 ≤ recall (tpTotal t s chunks l) (gtCount tables l) ∧ 0 < recall (tpTotal t s chunks l) (gtCount tables l) := by
  have hb := hits_bound hc h ht l chunks hch
  obtain ⟨_, h2, _⟩ := C29_interpolation t (gtCount tables l) l chunks _ (by rw [hch]) hb
  have hI := h2 j hj
  generalize (interpolated (curveOf t (gtCount tables l) l chunks).prec)[j] = w at hI h0
  rcases hI.2 with ⟨q, _⟩ | ⟨k, ⟨_, _, k3⟩, q⟩
  · exact absurd q h0
  · have ha := all_hits hc h ht l chunks hch hs
    unfold recall
    have hle : hits ((out.filter (fun r => decide (r.row.pl = l))).map (tpOuter t)) k ≤ tpTotal t s chunks l := by
      rw [← ha]
      unfold hits
      exact (List.take_sublist _ _).count_le _
    have hpos : 0 < hits ((out.filter (fun r => decide (r.row.pl = l))).map (tpOuter t)) k := by
      rcases Nat.eq_zero_or_pos (hits ((out.filter (fun r => decide (r.row.pl = l))).map (tpOuter t)) k) with hz | hz
      · exfalso
        apply h0
        rw [q]
        unfold precisionAt
        rw [hz]
        simp
      · exact hz
    have hg : 0 < gtCount tables l := by omega
    have hgq : (0 : Rat) < (gtCount tables l : Rat) := Nat.cast_pos.2 hg
    rw [if_pos hg]
    refine ⟨le_trans k3 (div_le_div_of_nonneg_right (Nat.cast_le.2 hle) hgq.le), div_pos (Nat.cast_pos.2 (by omega)) hgq⟩

omit hc h ht hch hs in
theorem sum_limit (c : List Rat) : ∀ x : Rat, -1 ≤ x → (∀ w ∈ c, w ≤ 1) → (∀ (j : Nat) (hj : j < c.length), c[j] ≠ 0 → (j : Rat) ≤ x) → c.sum ≤ x + 1 := by
  induction c with
  | nil => intro x hx _ _; simp only [List.sum_nil]; linarith
  | cons a c ih =>
    intro x hx h1 h2
    have ha := h1 a List.mem_cons_self
    have h3 : ∀ (j : Nat) (hj : j < c.length), c[j] ≠ 0 → (j : Rat) + 1 ≤ x := by
      intro j hj h0
      have := h2 (j + 1) (by simpa using hj) (by simpa using h0)
      push_cast at this
      exact this
    rw [List.sum_cons]
    by_cases hx0 : 0 ≤ x
    · have := ih (x - 1) (by linarith) (fun w hw => h1 w (List.mem_cons_of_mem _ hw)) (fun j hj h0 => by linarith [h3 j hj h0])
      linarith
    · have e : a = 0 := by
        by_contra h0
        have := h2 0 (by simp) (by simpa using h0)
        simp only [Nat.cast_zero] at this
        exact hx0 this
      have := ih (-1) (le_refl _) (fun w hw => h1 w (List.mem_cons_of_mem _ hw)) (fun j hj h0 => by
        have := h3 j hj h0
        have hj0 : (0 : Rat) ≤ (j : Rat) := Nat.cast_nonneg j
        linarith)
      linarith

/-- Average precision against the recall that is reached. -/
theorem ap_limit : apAt tables chunks t l ≤ ((⌊100 * recallAt tables chunks t s l⌋ : Rat) + 1) / 101 ∧
    (apAt tables chunks t l = 0 ↔ recallAt tables chunks t s l = 0) := by
  have hb := hits_bound hc h ht l chunks hch
  obtain ⟨h1, h2, h3⟩ := C29_interpolation t (gtCount tables l) l chunks _ (by rw [hch]) hb
  have hend := curve_ends hc h ht l chunks hch hs
  have hab := curve_above hc h ht l chunks hch s
  have hr : ∀ w ∈ interpolated (curveOf t (gtCount tables l) l chunks).prec, 0 ≤ w ∧ w ≤ 1 := by
    intro w hw
    obtain ⟨j, hj, rfl⟩ := List.getElem_of_mem hw
    rcases (h2 j hj).2 with ⟨q, _⟩ | ⟨k, _, q⟩
    · rw [q]; exact ⟨le_refl _, zero_le_one⟩
    · rw [q]; exact precisionAt_range _ k
  have hrec : 0 ≤ recall (tpTotal t s chunks l) (gtCount tables l) := by
    unfold recall
    split
    · exact div_nonneg (Nat.cast_nonneg _) (Nat.cast_nonneg _)
    · exact le_refl _
  unfold apAt recallAt
  rw [h3]
  generalize hcc : interpolated (curveOf t (gtCount tables l) l chunks).prec = c at *
  constructor
  · apply div_le_div_of_nonneg_right _ (by norm_num)
    have hfl : (0 : Rat) ≤ (⌊100 * recall (tpTotal t s chunks l) (gtCount tables l)⌋ : Rat) := by
      exact_mod_cast Int.floor_nonneg.2 (by linarith)
    apply sum_limit c _ (by linarith) (fun w hw => (hr w hw).2)
    intro j hj h0
    have q1 := (hend j hj h0).1
    have q2 : ((j : Int) : Rat) ≤ 100 * recall (tpTotal t s chunks l) (gtCount tables l) := by push_cast; linarith
    have := Int.le_floor.2 q2
    exact_mod_cast this
  · constructor
    · intro h0
      by_contra hne
      have hsum : c.sum = 0 := by linarith
      have htp : 0 < tpTotal t s chunks l := by
        by_contra hz
        apply hne
        have : tpTotal t s chunks l = 0 := by omega
        rw [this]
        unfold recall
        simp
      have hj : 0 < c.length := by omega
      have a1 := hab 0 hj (by simpa using hrec)
      have a2 : 0 < precision (tpTotal t s chunks l) (fpTotal t s chunks l) := by
        unfold precision
        rw [if_pos (by omega)]
        exact div_pos (Nat.cast_pos.2 htp) (Nat.cast_pos.2 (by omega))
      have a3 : c[0] ≤ c.sum := List.single_le_sum (fun x hx => (hr x hx).1) _ (List.getElem_mem hj)
      linarith
    · intro h0
      have : ∀ w ∈ c, w = 0 := by
        intro w hw
        obtain ⟨j, hj, rfl⟩ := List.getElem_of_mem hw
        by_contra hne
        have := (hend j hj hne).2
        linarith
      rw [List.sum_eq_zero this]
      simp

end

theorem sum_least (w : Rat) (c : List Rat) : ∀ k : Nat, k ≤ c.length → (∀ x ∈ c, 0 ≤ x) → (∀ j (hj : j < c.length), j < k → w ≤ c[j]) → w * (k : Rat) ≤ c.sum := by
  induction c with
  | nil =>
    intro k hk _ _
    have : k = 0 := by simpa using hk
    simp [this]
  | cons a c ih =>
    intro k hk hnn hle
    cases k with
    | zero =>
      simp only [Nat.cast_zero, mul_zero]
      exact List.sum_nonneg hnn
    | succ k =>
      rw [List.sum_cons]
      have a1 := hle 0 (by simp) (by omega)
      have a2 := ih k (by simpa using hk) (fun x hx => hnn x (List.mem_cons_of_mem _ hx)) (fun j hj hjk => by
        have := hle (j + 1) (by simpa using hj) (by omega)
        simpa using this)
      simp only [List.getElem_cons_zero] at a1
      push_cast
      linarith

/-- Average precision against the precision and recall of any score threshold. -/
theorem ap_least {tables : List (List Row)} (hc : CacheOk tables) {out : List RRow} (h : RankedOf tables out) {t : Rat} (ht : 0 < t) (l : Int)
    (chunks : List (List RRow)) (hch : chunks.flatten = out) (s : Rat) :
    precisionOf chunks t s l * ((⌊100 * recallAt tables chunks t s l⌋ : Rat) + 1) / 101 ≤ apAt tables chunks t l := by
  have hb := hits_bound hc h ht l chunks hch
  obtain ⟨h1, h2, h3⟩ := C29_interpolation t (gtCount tables l) l chunks _ (by rw [hch]) hb
  have hab := curve_above hc h ht l chunks hch s
  have hr : ∀ w ∈ interpolated (curveOf t (gtCount tables l) l chunks).prec, 0 ≤ w := by
    intro w hw
    obtain ⟨j, hj, rfl⟩ := List.getElem_of_mem hw
    rcases (h2 j hj).2 with ⟨q, _⟩ | ⟨k, _, q⟩
    · rw [q]
    · rw [q]; exact (precisionAt_range _ k).1
  have hrec : 0 ≤ recall (tpTotal t s chunks l) (gtCount tables l) ∧ recall (tpTotal t s chunks l) (gtCount tables l) ≤ 1 := by
    unfold recall
    split
    · rename_i hg
      refine ⟨div_nonneg (Nat.cast_nonneg _) (Nat.cast_nonneg _), ?_⟩
      rw [div_le_one (Nat.cast_pos.2 hg)]
      exact Nat.cast_le.2 (C28_bound hc h t s l chunks hch)
    · exact ⟨le_refl _, zero_le_one⟩
  unfold apAt recallAt precisionOf
  rw [h3]
  generalize interpolated (curveOf t (gtCount tables l) l chunks).prec = c at *
  generalize precision (tpTotal t s chunks l) (fpTotal t s chunks l) = w at *
  generalize recall (tpTotal t s chunks l) (gtCount tables l) = R at *
  apply div_le_div_of_nonneg_right _ (by norm_num)
  have hfl : 0 ≤ ⌊100 * R⌋ := Int.floor_nonneg.2 (by linarith [hrec.1])
  have hup : ⌊100 * R⌋ ≤ 100 := by
    have : (⌊100 * R⌋ : Rat) ≤ 100 := le_trans (Int.floor_le _) (by linarith [hrec.2])
    exact_mod_cast this
  obtain ⟨k, hk⟩ := Int.eq_ofNat_of_zero_le hfl
  have := sum_least w c (k + 1) (by omega) hr (fun j hj hjk => hab j hj (by
    have q : (j : Int) ≤ ⌊100 * R⌋ := by omega
    have q2 := Int.le_floor.1 q
    push_cast at q2
    linarith))
  rw [hk]
  push_cast at this ⊢
  exact this

/-! ## Means -/

theorem mean_limit {α : Type} (L : List α) (hL : L ≠ []) (f g : α → Rat) (h : ∀ x ∈ L, f x ≤ (100 * g x + 1) / 101) :
    mean (L.map f) ≤ (100 * mean (L.map g) + 1) / 101 := by
  have hs : ∀ L : List α, (∀ x ∈ L, f x ≤ (100 * g x + 1) / 101) → (L.map f).sum ≤ (100 * (L.map g).sum + (L.length : Rat)) / 101 := by
    intro L
    induction L with
    | nil => intro _; simp
    | cons a L ih =>
      intro h
      have a1 := h a List.mem_cons_self
      have a2 := ih (fun x hx => h x (List.mem_cons_of_mem _ hx))
      simp only [List.map_cons, List.sum_cons, List.length_cons]
      push_cast
      linarith
  have hn : (0 : Rat) < (L.length : Rat) := Nat.cast_pos.2 (List.length_pos_iff.2 hL)
  have := hs L h
  unfold mean
  rw [List.length_map, List.length_map, div_le_iff₀ hn]
  refine le_trans this (le_of_eq ?_)
  field_simp

theorem mean_exchange {α β : Type} (A : List α) (B : List β) (f : α → β → Rat) :
    mean (A.map (fun a => mean (B.map (f a)))) = mean (B.map (fun b => mean (A.map (fun a => f a b)))) := by
  have hz : ∀ (A : List α) (B : List β), (A.map (fun a => (B.map (f a)).sum)).sum = (B.map (fun b => (A.map (fun a => f a b)).sum)).sum := by
    intro A B
    induction A with
    | nil => simp
    | cons a A ih => simp only [List.map_cons, List.sum_cons, ih, List.sum_map_add]
  have hd : ∀ {γ : Type} (C : List γ) (g : γ → Rat) (n : Rat), (C.map (fun x => g x / n)).sum = (C.map g).sum / n := by
    intro γ C g n
    induction C with
    | nil => simp
    | cons a C ih => simp only [List.map_cons, List.sum_cons, ih, add_div]
  unfold mean
  simp only [List.length_map, hd, hz]
  rw [div_right_comm]

theorem means_limit (labels : List (Nat × String)) (hL : labels ≠ []) {ious : List Rat} (hi : ious ≠ []) (f g : Rat → Int → Rat)
    (h : ∀ lb ∈ labels, ∀ t ∈ ious, f t (lb.1 : Int) ≤ (100 * g t (lb.1 : Int) + 1) / 101) :
    mean (ious.map (fun t => mean ((labels.map (fun lb => (lb.1 : Int))).map (f t)))) ≤
      (100 * mean ((labels.map (fun lb => (lb.1 : Int))).map (fun l => mean (ious.map (fun t => g t l)))) + 1) / 101 := by
  rw [mean_exchange, List.map_map, List.map_map]
  exact mean_limit labels hL _ _ (fun lb hlb => mean_limit ious hi _ _ (fun t ht => h lb hlb t ht))

/-! ## Reports -/

theorem rows_leave {calls : List History} {ftables : List (List FRow)} (hst : Stored (Loader.init.addAll calls).rows ftables)
    (hH : HistoryOk calls.flatten) (hS : SizesOk (Loader.init.addAll calls)) {out : List RRow} (h : RankedOf (rowsIn ftables) out) {k : Nat} {v : String}
    (hk : (Loader.init.addAll calls).labels[k]? = some v) {s : Rat} (hs : LeavesOutNone calls.flatten v s) :
    ∀ r ∈ out, r.row.pl = (k : Int) → EPSILON < r.row.score → s ≤ r.row.score := by
  intro r hr hpl hpos
  have hhold := holding_of_stored hst
  obtain ⟨m1, m2, _⟩ := ranked_pd (cacheOk_of_holding hhold hH hS.labels) h hr
  obtain ⟨i, d, fr, _, hi, hfr, hrow⟩ := (hhold.rows r.row).1 m1
  rw [← hrow] at hpl m2 hpos ⊢
  rcases hfr.pd with ⟨e, _⟩ | ⟨p, a, l, hpa, hz, _, e2, e3⟩
  · omega
  · have hmem := (isRow_labels calls hi hfr).2 l e3
    have hl : l = v := by
      rw [e2] at hpl
      have : (Loader.init.addAll calls).labels.idxOf l = k := by exact_mod_cast hpl
      have q := List.getElem?_idxOf hmem
      rw [this, hk] at q
      exact (Option.some.inj q).symm
    subst hl
    exact hs d (List.mem_of_getElem? hi) a (List.mem_of_getElem? hpa) _ hz hpos

/-- **C120.** For every dataset, storage layout, list of positive IoU thresholds and list of score thresholds, in the report of
`compute_precision_recall`: the average precision of a label is at least the precision at any of the score thresholds times the part of the 101
recall levels reached there. At a score threshold that leaves out no prediction of the label, it is at most the part of the recall levels reached,
and 0 exactly if the recall is 0. Averaged over the IoU thresholds, average precision is at most the average recall plus (1 - AR) / 101, for each label
and for the means over the labels. -/
theorem C120_report (calls : List History) (hv : ∀ x ∈ calls.flatten, DetOk x.1) (hH : HistoryOk calls.flatten)
    (hS : SizesOk (Loader.init.addAll calls)) (hne : (Loader.init.addAll calls).labels ≠ [])
    {ftables : List (List FRow)} (hst : Stored (Loader.init.addAll calls).rows ftables)
    {chunks : List (List RRow)} (h : RankedOf (rowsIn ftables) chunks.flatten)
    {order : List Rat → List Nat} (ho : IsArgsort order) {ious scores : List Rat} (hi : ious ≠ []) (hs : scores ≠ []) (hpos : ∀ t ∈ ious, 0 < t) :
    let labels := (extractLabels (ftables.map (fun t => t.map labelCols))).map (fun x => (x.1.toNat, x.2))
    ∃ R, computePrecisionRecall order labels (rowsIn ftables) chunks ious scores = .ok R ∧
      (∀ a p r t v s, .ap (some a) t v ∈ R.all → .precision p v t s ∈ R.all → .recall r v t s ∈ R.all → p * ((⌊100 * r⌋ : Rat) + 1) / 101 ≤ a) ∧
      (∀ a r t v s, .ap (some a) t v ∈ R.all → .recall r v t s ∈ R.all → LeavesOutNone calls.flatten v s →
        a ≤ ((⌊100 * r⌋ : Rat) + 1) / 101 ∧ (a = 0 ↔ r = 0)) ∧
      (∀ a r v s, .apOverIous (some a) ious v ∈ R.all → .ar (some r) ious s v ∈ R.all → LeavesOutNone calls.flatten v s → a ≤ r + (1 - r) / 101) ∧
      (∀ a r s, .mAPOverIous (some a) ious ∈ R.all → .mAR (some r) ious s ∈ R.all → (∀ v, LeavesOutNone calls.flatten v s) → a ≤ r + (1 - r) / 101) := by
  intro labels
  obtain ⟨hl, e1⟩ := C60_end_to_end calls hv hH hS hne hst h rfl ho hi hs
  have hc := cacheOk_of_holding (holding_of_stored hst) hH hS.labels
  have hnd := (linv_addAll calls).nodup
  have same : ∀ lb ∈ labels, ∀ lb' ∈ labels, lb.2 = lb'.2 → lb = lb' := by
    intro lb h1 lb' h2 he
    have k1 := (hl lb).1 h1
    have k2 := (hl lb').1 h2
    rw [← he] at k2
    refine Prod.ext ?_ he
    obtain ⟨i1, _⟩ := List.getElem?_eq_some_iff.1 k1
    exact (List.getElem?_inj i1 hnd).1 (k1.trans k2.symm)
  have hlim : ∀ lb ∈ labels, ∀ s, LeavesOutNone calls.flatten lb.2 s → ∀ t ∈ ious,
      apAt (rowsIn ftables) chunks t (lb.1 : Int) ≤ ((⌊100 * recallAt (rowsIn ftables) chunks t s (lb.1 : Int)⌋ : Rat) + 1) / 101 ∧
      (apAt (rowsIn ftables) chunks t (lb.1 : Int) = 0 ↔ recallAt (rowsIn ftables) chunks t s (lb.1 : Int) = 0) := by
    intro lb hlb s hlo t ht
    exact ap_limit hc h (hpos t ht) (lb.1 : Int) chunks rfl (rows_leave hst hH hS h ((hl lb).1 hlb) hlo)
  have hlin : ∀ lb ∈ labels, ∀ s, LeavesOutNone calls.flatten lb.2 s → ∀ t ∈ ious,
      apAt (rowsIn ftables) chunks t (lb.1 : Int) ≤ (100 * recallAt (rowsIn ftables) chunks t s (lb.1 : Int) + 1) / 101 := by
    intro lb hlb s hlo t ht
    refine le_trans (hlim lb hlb s hlo t ht).1 (div_le_div_of_nonneg_right ?_ (by norm_num))
    have := Int.floor_le (100 * recallAt (rowsIn ftables) chunks t s (lb.1 : Int))
    linarith
  refine ⟨_, e1, ?_, ?_, ?_, ?_⟩
  · intro a p r t v s ha hp hr
    obtain ⟨k1, lb, q1, q2, q3⟩ := (mem_expected _).1 ha
    obtain ⟨_, lb', w1, w2, w3⟩ := (mem_expected _).1 hp
    obtain ⟨_, lb'', x1, x2, x3⟩ := (mem_expected _).1 hr
    rw [← same lb q1 lb' w1 (q2.trans w2.symm)] at w3
    rw [← same lb q1 lb'' x1 (q2.trans x2.symm)] at x3
    rw [Option.some.inj q3, w3, x3]
    exact ap_least hc h (hpos t k1) _ chunks rfl s
  · intro a r t v s ha hr hlo
    obtain ⟨k1, lb, q1, q2, q3⟩ := (mem_expected _).1 ha
    obtain ⟨_, lb'', x1, x2, x3⟩ := (mem_expected _).1 hr
    rw [← same lb q1 lb'' x1 (q2.trans x2.symm)] at x3
    rw [Option.some.inj q3, x3]
    exact hlim lb q1 s (q2 ▸ hlo) t k1
  · intro a r v s ha hr hlo
    obtain ⟨_, lb, q1, q2, q3⟩ := (mem_expected _).1 ha
    obtain ⟨_, lb'', x1, x2, x3⟩ := (mem_expected _).1 hr
    rw [← same lb q1 lb'' x1 (q2.trans x2.symm)] at x3
    rw [Option.some.inj q3, Option.some.inj x3]
    refine le_trans (mean_limit ious hi _ _ (fun t ht => hlin lb q1 s (q2 ▸ hlo) t ht)) (le_of_eq ?_)
    ring
  · intro a r s ha hr hlo
    obtain ⟨_, q3⟩ := (mem_expected _).1 ha
    obtain ⟨_, x3⟩ := (mem_expected _).1 hr
    have hlne : labels ≠ [] := by
      intro h0
      obtain ⟨v, hv⟩ := List.exists_mem_of_ne_nil _ hne
      obtain ⟨k, hk⟩ := List.getElem?_of_mem hv
      have := (hl (k, v)).2 hk
      have h0' : (extractLabels (ftables.map (fun t => t.map labelCols))).map (fun x => (x.1.toNat, x.2)) = [] := h0
      rw [h0'] at this
      simp at this
    rw [Option.some.inj q3, Option.some.inj x3]
    refine le_trans (means_limit labels hlne hi _ _ (fun lb hlb t ht => hlin lb hlb s (hlo lb.2) t ht)) (le_of_eq ?_)
    ring

/-- The conditions of `C120_report` are met by the sample dataset, and the score threshold 0 leaves out none of its predictions. -/
example : ∃ R, computePrecisionRecall stableOrder
      ((extractLabels ([(Loader.init.addAll sampleCalls).rows.flatten].map (fun t => t.map labelCols))).map (fun x => (x.1.toNat, x.2)))
      (rowsIn [(Loader.init.addAll sampleCalls).rows.flatten])
      [rankTable ((Loader.init.addAll sampleCalls).rows.flatten.map FRow.row)] [3 / 4, 1 / 2] [1 / 2, 0] = .ok R ∧
    (∀ v, LeavesOutNone sampleCalls.flatten v 0) ∧
    (∀ a r s, .mAPOverIous (some a) [3 / 4, 1 / 2] ∈ R.all → .mAR (some r) [3 / 4, 1 / 2] s ∈ R.all → (∀ v, LeavesOutNone sampleCalls.flatten v s) →
      a ≤ r + (1 - r) / 101) := by
  obtain ⟨R, h1, _, _, _, h2⟩ := C120_report sampleCalls sampleCalls_det sampleCalls_ok.1 sampleCalls_ok.2.2 (by decide +kernel)
    (stored_one _) sampleCalls_ranked stableOrder_ok (ious := [3 / 4, 1 / 2]) (scores := [1 / 2, 0]) (by simp) (by simp)
    (by intro t ht; simp only [List.mem_cons, List.not_mem_nil, or_false] at ht; rcases ht with rfl | rfl <;> norm_num)
  refine ⟨R, h1, ?_, h2⟩
  intro v x _ a _ c _ hc
  exact le_of_lt (lt_trans (by norm_num [EPSILON]) hc)

end Verif.Detection
