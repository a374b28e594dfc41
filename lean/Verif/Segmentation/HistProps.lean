import Verif.Segmentation.MetricsProps

/-! # The stored rows are a histogram of the pixels; metrics of a dataset (C38, C39, C55) -/

namespace Verif.Segmentation

open Verif.Classification (idxOf_prefix unique)

/-- The id stored for a label or for background. -/
def sval (L : List String) : Option String → Int
  | none => -1
  | some v => (L.idxOf v : Nat)

/-- Weighted sum of the counts of rows. -/
def wsum (w : SRow → Nat) (rows : List SRow) : Nat := (rows.map (fun r => w r * r.count)).sum

theorem wsum_append (w : SRow → Nat) (a b : List SRow) : wsum w (a ++ b) = wsum w a + wsum w b := by simp [wsum]

theorem wsum_cons (w : SRow → Nat) (r : SRow) (l : List SRow) : wsum w (r :: l) = w r * r.count + wsum w l := by simp [wsum]

theorem wsum_flatten (w : SRow → Nat) (l : List (List SRow)) : wsum w l.flatten = (l.map (wsum w)).sum := by
  induction l with
  | nil => rfl
  | cons a l ih => rw [List.flatten_cons, wsum_append, ih, List.map_cons, List.sum_cons]

theorem wsum_perm (w : SRow → Nat) {a b : List SRow} (h : a.Perm b) : wsum w a = wsum w b := (h.map _).sum_eq

theorem wsum_congr {w w' : SRow → Nat} {l : List SRow} (h : ∀ r ∈ l, w r = w' r) : wsum w l = wsum w' l := by
  unfold wsum
  congr 1
  apply List.map_congr_left
  intro r hr
  rw [h r hr]

/-- A row as weight at its position. -/
theorem position_sum {n : Nat} {a b : Nat} (ha : a ≤ n) (hb : b ≤ n) (f : Nat → Nat → Nat) :
    upTo (n + 1) (fun i => upTo (n + 1) (fun j => if i = a ∧ j = b then f i j else 0)) = f a b := by
  have e : (fun i => upTo (n + 1) (fun j => if i = a ∧ j = b then f i j else 0)) = fun i => if i = a then f i b else 0 := by
    funext i
    by_cases h : i = a
    · have : (fun j => if i = a ∧ j = b then f i j else 0) = fun j => if j = b then f i j else 0 := by
        funext j; simp [h]
      rw [this, if_pos h]
      unfold upTo
      rw [sum_range_ite, if_pos (by omega)]
    · have : (fun j => if i = a ∧ j = b then f i j else 0) = fun _ => 0 := by
        funext j; simp [h]
      rw [this, if_neg h, upTo_zero]
  rw [e]
  unfold upTo
  rw [sum_range_ite, if_pos (by omega)]

/-- Weighted sums over rows with ids below `n` from the sums at each position. -/
theorem hist (φ : Int → Int → Nat) (n : Nat) (rows : List SRow)
    (h : ∀ r ∈ rows, (∃ a ≤ n, r.gl = (a : Int) - 1) ∧ ∃ b ≤ n, r.pl = (b : Int) - 1) :
    wsum (fun r => φ r.gl r.pl) rows
      = upTo (n + 1) (fun i => upTo (n + 1) (fun j => φ ((i : Int) - 1) ((j : Int) - 1) * rowSum rows i j)) := by
  induction rows with
  | nil =>
    simp only [rowSum_nil, Nat.mul_zero, upTo_zero]
    rfl
  | cons r rows ih =>
    rw [wsum_cons, ih (fun x hx => h x (by simp [hx]))]
    obtain ⟨⟨a, ha, hga⟩, ⟨b, hb, hpb⟩⟩ := h r (by simp)
    have hside : ∀ k c : Nat, isSide k ((c : Int) - 1) = decide (k = c) := by
      intro k c
      cases c with
      | zero => rw [show ((0 : Nat) : Int) - 1 = -1 by omega, isSide_neg]
      | succ c => rw [show ((c + 1 : Nat) : Int) - 1 = (c : Int) by omega, isSide_nat]
    have e : (fun i : Nat => upTo (n + 1) (fun j => φ ((i : Int) - 1) ((j : Int) - 1) * rowSum (r :: rows) i j))
        = fun i => upTo (n + 1) (fun j => if i = a ∧ j = b then φ ((i : Int) - 1) ((j : Int) - 1) * r.count else 0)
          + upTo (n + 1) (fun j => φ ((i : Int) - 1) ((j : Int) - 1) * rowSum rows i j) := by
      funext i
      rw [← upTo_add]
      congr 1
      funext j
      rw [rowSum_cons, Nat.mul_add, hga, hpb, hside, hside]
      congr 1
      by_cases hc : i = a ∧ j = b
      · rw [if_pos hc, if_pos (by simp [hc])]
      · rw [if_neg hc, if_neg (by simpa using hc), Nat.mul_zero]
    rw [e, upTo_add, position_sum ha hb (fun i j => φ ((i : Int) - 1) ((j : Int) - 1) * r.count), hga, hpb]

/-- A pixel as a row with count 1. -/
def pixelRow (L : List String) (s : Seg) (x : Nat) : SRow :=
  ⟨0, sval L (itemAt s.gts x), sval L (itemAt s.pds x), 1, "", none, none, []⟩

theorem sval_code (L : List String) (o : Option String) : sval L o = (code (o.map (fun v => L.idxOf v)) : Int) - 1 := by
  cases o <;> simp [sval, code]

theorem itemAt_mem {items : List Item} {x : Nat} {v : String} (h : itemAt items x = some v) : ∃ it ∈ items, it.label = v := by
  unfold itemAt at h
  obtain ⟨it, hf, rfl⟩ := Option.map_eq_some_iff.1 h
  exact ⟨it, List.mem_of_find?_eq_some hf, rfl⟩

theorem pixelRows_sum {s : Seg} (h : SegOk s) (hs : s.size < 2 ^ 64) {L : List String} (hL : ∀ x ∈ s.gts ++ s.pds, x.label ∈ L) (i j : Nat) :
    rowSum ((List.range s.size).map (pixelRow L s)) i j = imgMatrix L s i j := by
  unfold imgMatrix
  rw [C37_entries (h.gts.side (fun x hx => hL x (by simp [hx]))) (h.pds.side (fun x hx => hL x (by simp [hx]))) hs]
  unfold pixels
  have hside : ∀ k c : Nat, isSide k ((c : Int) - 1) = decide (k = c) := by
    intro k c
    cases c with
    | zero => rw [show ((0 : Nat) : Int) - 1 = -1 by omega, isSide_neg]
    | succ c => rw [show ((c + 1 : Nat) : Int) - 1 = (c : Int) by omega, isSide_nat]
  generalize List.range s.size = l
  induction l with
  | nil => rfl
  | cons x l ih =>
    rw [List.map_cons, rowSum_cons, ih, List.countP_cons, Nat.add_comm]
    congr 1
    unfold pixelRow
    dsimp only
    rw [sval_code, sval_code, hside, hside, itemAt_combined, itemAt_combined]
    simp only [Bool.and_eq_true, decide_eq_true_eq]
    simp only [eq_comm]

/-- The rows of one image are a histogram of its pixels. -/
theorem image_hist (φ : Int → Int → Nat) {s : Seg} (h : SegOk s) (hs : s.size < 2 ^ 64) {L L' : List String} (hp : L <+: L')
    (hL : ∀ x ∈ s.gts ++ s.pds, x.label ∈ L) (k : Nat) :
    wsum (fun r => φ r.gl r.pl) (segRows s k L (imgMatrix L' s))
      = ((List.range s.size).map (fun x => φ (sval L' (itemAt s.gts x)) (sval L' (itemAt s.pds x)))).sum := by
  have hL' : ∀ x ∈ s.gts ++ s.pds, x.label ∈ L' := fun x hx => hp.subset (hL x hx)
  have hrow : ∀ r ∈ segRows s k L (imgMatrix L' s), (∃ a ≤ L'.length, r.gl = (a : Int) - 1) ∧ ∃ b ≤ L'.length, r.pl = (b : Int) - 1 := by
    intro r hr
    obtain ⟨h1, h2⟩ := segRows_cols hr
    have hle := hp.length_le
    constructor
    · rcases h1 with e | ⟨i, e, hi, _⟩
      · exact ⟨0, Nat.zero_le _, by rw [e]; rfl⟩
      · exact ⟨i + 1, by omega, by rw [e]; omega⟩
    · rcases h2 with e | ⟨i, e, hi, _⟩
      · exact ⟨0, Nat.zero_le _, by rw [e]; rfl⟩
      · exact ⟨i + 1, by omega, by rw [e]; omega⟩
  have hpix : ∀ r ∈ (List.range s.size).map (pixelRow L' s), (∃ a ≤ L'.length, r.gl = (a : Int) - 1) ∧ ∃ b ≤ L'.length, r.pl = (b : Int) - 1 := by
    intro r hr
    obtain ⟨x, _, rfl⟩ := List.mem_map.1 hr
    have : ∀ items : List Item, (∀ it ∈ items, it.label ∈ L') → ∃ a ≤ L'.length, sval L' (itemAt items x) = (a : Int) - 1 := by
      intro items hi
      cases ho : itemAt items x with
      | none => exact ⟨0, Nat.zero_le _, rfl⟩
      | some v =>
        obtain ⟨it, hit, rfl⟩ := itemAt_mem ho
        exact ⟨L'.idxOf it.label + 1, List.idxOf_lt_length_of_mem (hi it hit), by simp [sval]⟩
    exact ⟨this _ (fun it hit => hL' it (by simp [hit])), this _ (fun it hit => hL' it (by simp [hit]))⟩
  have e : wsum (fun r => φ r.gl r.pl) (segRows s k L (imgMatrix L' s)) = wsum (fun r => φ r.gl r.pl) ((List.range s.size).map (pixelRow L' s)) := by
    rw [hist φ _ _ hrow, hist φ _ _ hpix]
    congr 1
    funext i
    congr 1
    funext j
    rw [pixelRows_sum h hs hL', segRows_sum]
    split
    · rfl
    · rename_i hc
      rw [imgMatrix_out hp hL hc]
  rw [e]
  unfold wsum
  rw [List.map_map]
  congr 1
  apply List.map_congr_left
  intro x _
  simp [pixelRow]

/-- The rows of one image have its number and uid. -/
theorem segRows_datum {s : Seg} {k : Nat} {L : List String} {c : Nat → Nat → Nat} {r : SRow} (h : r ∈ segRows s k L c) :
    r.datum = (k : Int) ∧ r.datumUid = s.uid := by
  unfold segRows at h
  rw [List.mem_append, List.mem_flatMap, List.mem_singleton] at h
  rcases h with ⟨i, hi, h⟩ | rfl
  · rw [List.mem_append] at h
    rcases h with h | h
    · obtain ⟨j, hj, rfl⟩ := List.mem_map.1 h
      exact ⟨rfl, rfl⟩
    · simp only [List.mem_cons, List.not_mem_nil, or_false] at h
      rcases h with rfl | rfl <;> exact ⟨rfl, rfl⟩
  · exact ⟨rfl, rfl⟩

/-- The rows of a dataset are a histogram of its pixels; the weight may depend on the number of the image. -/
theorem dataset_hist (φ : Nat → Int → Int → Nat) (calls : List (List Seg)) (hok : ∀ s ∈ calls.flatten, SegOk s)
    (hs : ∀ s ∈ calls.flatten, s.size < 2 ^ 64) {rows : List SRow} (hp : rows.Perm (Loader.init.addAll calls).rows.flatten) :
    wsum (fun r => φ r.datum.toNat r.gl r.pl) rows
      = (calls.flatten.zipIdx.map (fun sk => ((List.range sk.1.size).map (fun x =>
          φ sk.2 (sval (Loader.init.addAll calls).labels (itemAt sk.1.gts x)) (sval (Loader.init.addAll calls).labels (itemAt sk.1.pds x)))).sum)).sum := by
  have h := loaded calls
  rw [wsum_perm _ hp, wsum_flatten]
  congr 1
  apply List.ext_getElem (by rw [List.length_map, List.length_map, List.length_zipIdx, h.len])
  intro k h1 h2
  rw [List.length_map] at h1 h2
  rw [List.length_zipIdx] at h2
  rw [List.getElem_map, List.getElem_map, List.getElem_zipIdx]
  obtain ⟨L, hL, hall, hr⟩ := h.rows k _ (List.getElem?_eq_getElem h2)
  rw [List.getElem?_eq_getElem h1] at hr
  rw [Option.some.inj hr, Nat.zero_add]
  dsimp only
  rw [← image_hist (φ k) (hok _ (List.getElem_mem h2)) (hs _ (List.getElem_mem h2)) hL hall k]
  apply wsum_congr
  intro r hr'
  rw [(segRows_datum hr').1, Int.toNat_natCast]

theorem sum_ind {α : Type} (l : List α) (q : α → Prop) [DecidablePred q] :
    (l.map (fun x => if q x then 1 else 0)).sum = l.countP (fun x => decide (q x)) := by
  induction l with
  | nil => rfl
  | cons x l ih =>
    rw [List.map_cons, List.sum_cons, ih, List.countP_cons, Nat.add_comm]
    congr 1
    simp

theorem zipIdx_map_fst {α β : Type} (l : List α) (f : α → β) (k : Nat) : (l.zipIdx k).map (fun sk => f sk.1) = l.map f := by
  induction l generalizing k with
  | nil => rfl
  | cons a l ih => simp [List.zipIdx_cons, ih]

/-- Number of pixels with the given ground truth. -/
def gtPixelsOf (s : Seg) (a : Option String) : Nat := (List.range s.size).countP (fun x => decide (itemAt s.gts x = a))

/-- Number of pixels with the given prediction. -/
def pdPixelsOf (s : Seg) (b : Option String) : Nat := (List.range s.size).countP (fun x => decide (itemAt s.pds x = b))

theorem sval_inj {L : List String} {o : Option String} {v : String} (hv : v ∈ L) : sval L o = (L.idxOf v : Int) ↔ o = some v := by
  cases o with
  | none => simp only [sval]; constructor <;> intro h; omega; cases h
  | some w =>
    simp only [sval, Option.some.injEq]
    constructor
    · intro h
      exact (idxOf_inj hv (by omega)).symm
    · rintro rfl; rfl

theorem matrix_rows {n : Nat} {tables : List (List SRow)} (hs : wsum (fun _ => 1) tables.flatten < 2 ^ 64) {i j : Nat} (hi : i ≤ n) (hj : j ≤ n) :
    confusionMatrix n none tables i j = rowSum tables.flatten i j := by
  apply confusion_eq hi hj
  apply lt_of_le_of_lt _ hs
  generalize tables.flatten = rows
  induction rows with
  | nil => simp [rowSum_nil]
  | cons r rows ih =>
    rw [rowSum_cons, wsum_cons]
    split <;> omega

/-- The ids of stored rows are -1 or indices of labels. -/
theorem rows_ids {calls : List (List Seg)} {tables : List (List SRow)} (hp : tables.flatten.Perm (Loader.init.addAll calls).rows.flatten) :
    ∀ r ∈ tables.flatten, (∃ a ≤ (Loader.init.addAll calls).labels.length, r.gl = (a : Int) - 1) ∧
      ∃ b ≤ (Loader.init.addAll calls).labels.length, r.pl = (b : Int) - 1 := by
  intro r hr
  obtain ⟨k, s, L', _, hL', _, hm⟩ := mem_rows (hp.mem_iff.1 hr)
  obtain ⟨h1, h2⟩ := segRows_cols hm
  have hle : L'.length ≤ (Loader.init.addAll calls).labels.length := hL'.length_le
  constructor
  · rcases h1 with e | ⟨i, e, hi, _⟩
    · exact ⟨0, Nat.zero_le _, by rw [e]; rfl⟩
    · exact ⟨i + 1, by omega, by rw [e]; omega⟩
  · rcases h2 with e | ⟨i, e, hi, _⟩
    · exact ⟨0, Nat.zero_le _, by rw [e]; rfl⟩
    · exact ⟨i + 1, by omega, by rw [e]; omega⟩

/-- The counts of the rows add up to the number of pixels. -/
theorem rows_total (calls : List (List Seg)) (hok : ∀ s ∈ calls.flatten, SegOk s) (hsz : ∀ s ∈ calls.flatten, s.size < 2 ^ 64)
    {tables : List (List SRow)} (hp : tables.flatten.Perm (Loader.init.addAll calls).rows.flatten) :
    wsum (fun _ => 1) tables.flatten = (calls.flatten.map Seg.size).sum := by
  have := dataset_hist (fun _ _ _ => 1) calls hok hsz hp
  rw [this, ← zipIdx_map_fst _ Seg.size 0]
  congr 1
  apply List.map_congr_left
  intro sk _
  simp

/-- The totals of the matrix of a dataset. -/
theorem matrix_totals (calls : List (List Seg)) (hok : ∀ s ∈ calls.flatten, SegOk s)
    (hs : (calls.flatten.map Seg.size).sum < 2 ^ 64) {tables : List (List SRow)}
    (hp : tables.flatten.Perm (Loader.init.addAll calls).rows.flatten) :
    let L := (Loader.init.addAll calls).labels
    let M := confusionMatrix L.length none tables
    allPixels L.length M = (calls.flatten.map Seg.size).sum ∧
    (∀ v ∈ L, gtPixels L.length M (L.idxOf v) = (calls.flatten.map (fun s => gtPixelsOf s (some v))).sum ∧
      pdPixels L.length M (L.idxOf v) = (calls.flatten.map (fun s => pdPixelsOf s (some v))).sum) := by
  intro L M
  have hsz : ∀ s ∈ calls.flatten, s.size < 2 ^ 64 := fun s hsm => lt_of_le_of_lt (le_sum_of_mem hsm) hs
  have hrow := rows_ids hp
  have htot := rows_total calls hok hsz hp
  have hM : ∀ i ≤ L.length, ∀ j ≤ L.length, M i j = rowSum tables.flatten i j := fun i hi j hj =>
    matrix_rows (by rw [htot]; exact hs) hi hj
  have hupTo : ∀ {n : Nat} {f g : Nat → Nat}, (∀ i < n, f i = g i) → upTo n f = upTo n g := by
    intro n f g h
    exact le_antisymm (upTo_le fun i hi => (h i hi).le) (upTo_le fun i hi => (h i hi).ge)
  have hall : allPixels L.length M = upTo (L.length + 1) (fun i => upTo (L.length + 1) (fun j => rowSum tables.flatten i j)) := by
    unfold allPixels
    exact hupTo fun i hi => hupTo fun j hj => hM i (by omega) j (by omega)
  refine ⟨?_, ?_⟩
  · rw [hall, ← htot]
    have := hist (fun _ _ => 1) L.length tables.flatten hrow
    simp only [Nat.one_mul] at this
    rw [this]
  · intro v hv
    have hlt := List.idxOf_lt_length_of_mem hv
    constructor
    · have e1 : gtPixels L.length M (L.idxOf v) = upTo (L.length + 1) (fun j => rowSum tables.flatten (L.idxOf v + 1) j) := by
        unfold gtPixels
        exact hupTo fun j hj => hM _ (by omega) _ (by omega)
      have e2 := hist (fun a _ => if a = (L.idxOf v : Int) then 1 else 0) L.length tables.flatten hrow
      have e3 : (fun i : Nat => upTo (L.length + 1) (fun j => (if ((i : Int) - 1) = (L.idxOf v : Int) then 1 else 0) * rowSum tables.flatten i j))
          = fun i => if i = L.idxOf v + 1 then upTo (L.length + 1) (fun j => rowSum tables.flatten i j) else 0 := by
        funext i
        by_cases hi : i = L.idxOf v + 1
        · subst hi; simp
        · have : ¬ ((i : Int) - 1 = (L.idxOf v : Int)) := by omega
          simp only [if_neg this, if_neg hi, Nat.zero_mul, upTo_zero]
      rw [e3] at e2
      rw [e1]
      have e4 : upTo (L.length + 1) (fun i => if i = L.idxOf v + 1 then upTo (L.length + 1) (fun j => rowSum tables.flatten i j) else 0)
          = upTo (L.length + 1) (fun j => rowSum tables.flatten (L.idxOf v + 1) j) := by
        conv_lhs => unfold upTo
        rw [sum_range_ite, if_pos (by omega)]
        rfl
      rw [← e4, ← e2, dataset_hist (fun _ a _ => if a = (L.idxOf v : Int) then 1 else 0) calls hok hsz hp,
        ← zipIdx_map_fst _ (fun s => gtPixelsOf s (some v)) 0]
      congr 1
      apply List.map_congr_left
      intro sk _
      unfold gtPixelsOf
      rw [sum_ind]
      apply List.countP_congr
      intro x _
      rw [decide_eq_true_eq, decide_eq_true_eq]
      exact sval_inj hv
    · have e1 : pdPixels L.length M (L.idxOf v) = upTo (L.length + 1) (fun i => rowSum tables.flatten i (L.idxOf v + 1)) := by
        unfold pdPixels
        exact hupTo fun j hj => hM _ (by omega) _ (by omega)
      have e2 := hist (fun _ b => if b = (L.idxOf v : Int) then 1 else 0) L.length tables.flatten hrow
      have e3 : (fun i : Nat => upTo (L.length + 1) (fun j => (if ((j : Int) - 1) = (L.idxOf v : Int) then 1 else 0) * rowSum tables.flatten i j))
          = fun i => rowSum tables.flatten i (L.idxOf v + 1) := by
        funext i
        have : (fun j : Nat => (if ((j : Int) - 1) = (L.idxOf v : Int) then 1 else 0) * rowSum tables.flatten i j)
            = fun j => if j = L.idxOf v + 1 then rowSum tables.flatten i j else 0 := by
          funext j
          by_cases hj : j = L.idxOf v + 1
          · subst hj; simp
          · have : ¬ ((j : Int) - 1 = (L.idxOf v : Int)) := by omega
            rw [if_neg this, if_neg hj, Nat.zero_mul]
        rw [this]
        unfold upTo
        rw [sum_range_ite, if_pos (by omega)]
      rw [e3] at e2
      rw [e1, ← e2, dataset_hist (fun _ _ b => if b = (L.idxOf v : Int) then 1 else 0) calls hok hsz hp,
        ← zipIdx_map_fst _ (fun s => pdPixelsOf s (some v)) 0]
      congr 1
      apply List.map_congr_left
      intro sk _
      unfold pdPixelsOf
      rw [sum_ind]
      apply List.countP_congr
      intro x _
      rw [decide_eq_true_eq, decide_eq_true_eq]
      exact sval_inj hv

/-- **C39 (dataset).** From the images to the reported values: for images with disjoint masks and distinct labels,
in any order and batching, and any division of the rows, the precision, recall and IoU reported for a label
are the quotients of the pixel counts of that label over the dataset. -/
theorem C39_dataset (calls : List (List Seg)) (hok : ∀ s ∈ calls.flatten, SegOk s)
    (hs : (calls.flatten.map Seg.size).sum < 2 ^ 64) {tables : List (List SRow)}
    (hp : tables.flatten.Perm (Loader.init.addAll calls).rows.flatten) {v : String} (hv : v ∈ (Loader.init.addAll calls).labels) :
    let L := (Loader.init.addAll calls).labels
    let M := confusionMatrix L.length none tables
    let tp := (calls.flatten.map (fun s => pixelsOf s (some v) (some v))).sum
    let gt := (calls.flatten.map (fun s => gtPixelsOf s (some v))).sum
    let pd := (calls.flatten.map (fun s => pdPixelsOf s (some v))).sum
    precision L.length M (L.idxOf v) = ratio tp pd ∧ recall L.length M (L.idxOf v) = ratio tp gt ∧
    iou L.length M (L.idxOf v) (L.idxOf v) = ratio tp (gt + pd - tp) ∧ f1 L.length M (L.idxOf v) = ratio (2 * tp) (gt + pd) := by
  intro L M tp gt pd
  obtain ⟨h1, h2⟩ := matrix_totals calls hok hs hp
  obtain ⟨hg, hq⟩ := h2 v hv
  have hlt : L.idxOf v < L.length := List.idxOf_lt_length_of_mem hv
  have hb : allPixels L.length M < 2 ^ 64 := by rw [h1]; exact hs
  obtain ⟨v1, v2, _⟩ := C39_values hb
  have htp : M (L.idxOf v + 1) (L.idxOf v + 1) = tp :=
    C38_matrix calls hok hs hp (a := some v) (b := some v) (by rintro w ⟨⟩; exact hv) (by rintro w ⟨⟩; exact hv)
  obtain ⟨p1, p2, _⟩ := v1 _ hlt
  have p3 := v2 _ hlt _ hlt
  have p4 := (C39_f1 hb hlt).1
  rw [htp, hg] at p2
  rw [htp, hq] at p1
  rw [htp, hg, hq] at p3 p4
  exact ⟨p1, p2, p3, p4⟩

/-- **C39 (accuracy of a dataset).** The accuracy is the share of the pixels whose predicted label (or background)
is the true one. -/
theorem C39_accuracy (calls : List (List Seg)) (hok : ∀ s ∈ calls.flatten, SegOk s)
    (hs : (calls.flatten.map Seg.size).sum < 2 ^ 64) {tables : List (List SRow)}
    (hp : tables.flatten.Perm (Loader.init.addAll calls).rows.flatten) :
    accuracy (Loader.init.addAll calls).labels.length (confusionMatrix (Loader.init.addAll calls).labels.length none tables)
      = ratio ((calls.flatten.map (fun s => (List.range s.size).countP (fun x => decide (itemAt s.gts x = itemAt s.pds x)))).sum)
          ((calls.flatten.map Seg.size).sum) := by
  have hl := loaded calls
  have hsz : ∀ s ∈ calls.flatten, s.size < 2 ^ 64 := fun s hsm => lt_of_le_of_lt (le_sum_of_mem hsm) hs
  obtain ⟨h1, h2⟩ := matrix_totals calls hok hs hp
  have hb : allPixels (Loader.init.addAll calls).labels.length (confusionMatrix (Loader.init.addAll calls).labels.length none tables) < 2 ^ 64 := by
    rw [h1]; exact hs
  rw [(C39_values hb).2.2, h1]
  congr 1
  have hrow := rows_ids hp
  have htot := rows_total calls hok hsz hp
  have e2 := hist (fun a b => if a = b then 1 else 0) (Loader.init.addAll calls).labels.length tables.flatten hrow
  have e3 : upTo ((Loader.init.addAll calls).labels.length + 1) (fun i => confusionMatrix (Loader.init.addAll calls).labels.length none tables i i)
      = upTo ((Loader.init.addAll calls).labels.length + 1) (fun i => upTo ((Loader.init.addAll calls).labels.length + 1) (fun j =>
          (if ((i : Int) - 1) = ((j : Int) - 1) then 1 else 0) * rowSum tables.flatten i j)) := by
    have hupTo : ∀ {n : Nat} {f g : Nat → Nat}, (∀ i < n, f i = g i) → upTo n f = upTo n g := by
      intro n f g h
      exact le_antisymm (upTo_le fun i hi => (h i hi).le) (upTo_le fun i hi => (h i hi).ge)
    apply hupTo
    intro i hi
    rw [matrix_rows (by rw [htot]; exact hs) (by omega) (by omega)]
    have : (fun j : Nat => (if ((i : Int) - 1) = ((j : Int) - 1) then 1 else 0) * rowSum tables.flatten i j)
        = fun j => if j = i then rowSum tables.flatten i j else 0 := by
      funext j
      by_cases hj : j = i
      · subst hj; simp
      · have : ¬ ((i : Int) - 1 = (j : Int) - 1) := by omega
        rw [if_neg this, if_neg hj, Nat.zero_mul]
    rw [this]
    unfold upTo
    rw [sum_range_ite, if_pos (by omega)]
  rw [e3, ← e2, dataset_hist (fun _ a b => if a = b then 1 else 0) calls hok hsz hp,
    ← zipIdx_map_fst calls.flatten (fun s : Seg => (List.range s.size).countP (fun x => decide (itemAt s.gts x = itemAt s.pds x))) 0]
  congr 1
  apply List.map_congr_left
  intro sk hsk
  have hsm : sk.1 ∈ calls.flatten := (List.mem_zipIdx' (by exact hsk)).2 ▸ List.getElem_mem _
  rw [sum_ind]
  apply List.countP_congr
  intro x _
  rw [decide_eq_true_eq, decide_eq_true_eq]
  have hin : ∀ {v}, itemAt sk.1.pds x = some v → v ∈ (Loader.init.addAll calls).labels := by
    intro v hv
    obtain ⟨it, hit, rfl⟩ := itemAt_mem hv
    exact (hl.labels _).2 ⟨sk.1, hsm, it, by simp [hit], rfl⟩
  cases ho : itemAt sk.1.pds x with
  | none =>
    cases itemAt sk.1.gts x with
    | none => simp
    | some w => simp only [sval]; constructor <;> intro h; omega; cases h
  | some v =>
    have := sval_inj (o := itemAt sk.1.gts x) (hin ho)
    exact this

end Verif.Segmentation
