import Verif.Classification.FilterProps
import Verif.Classification.ShardProps

/-! # C123: a filtered classification evaluator counts like one of the selected predictions -/

namespace Verif.Classification

open Verif.Shared

/-- What a user asks of the three conditions of `filter`: datums by uid and metadata, ground truths by label, predictions by label and
score. -/
structure Pick where
  datum : String → String → Bool
  gt : String → Bool
  pd : String → Rat → Bool

/-- The conditions say what is asked. A condition that is not given asks for everything. -/
structure Pick.Asked (q : Pick) (d g p : Option Expr) : Prop where
  datum : ∀ r, Holds d r = q.datum r.uid r.info
  gt : ∀ r, Holds g r = q.gt r.gtLabel
  pd : ∀ r, Holds p r = q.pd r.pdLabel r.score

/-- The classification with the selected predictions only. -/
def Pick.trim (q : Pick) (c : Classif) : Classif :=
  { c with
    preds := ((c.preds.zip c.scores).filter (fun x => q.pd x.1 x.2)).map Prod.fst
    scores := ((c.preds.zip c.scores).filter (fun x => q.pd x.1 x.2)).map Prod.snd }

/-- The classification is selected. -/
def Pick.takes (q : Pick) (c : Classif) : Bool := q.datum c.uid c.info && q.gt c.gt

/-- The selected classifications with their selected predictions; a classification without any is left out. -/
def Pick.only (q : Pick) (cs : List Classif) : List Classif :=
  ((cs.filter q.takes).map q.trim).filter (fun c => !c.preds.isEmpty)

/-- Of every selected classification the prediction with the highest score is selected, unless none is. -/
def Pick.KeepsTop (q : Pick) (cs : List Classif) : Prop :=
  ∀ c ∈ cs, q.takes c = true → ∀ (i : Nat) (p : String) (s : Rat), IsWinner c i → c.preds[i]? = some p → c.scores[i]? = some s →
    q.pd p s = true ∨ (q.trim c).preds = []

/-! ## Rows and the flag of the winner -/

/-- The row without its flag. -/
def unflag (r : Row) : Row := { r with winner := false }

/-- The row of an entry with a flag. -/
def flagRow (L : List String) (k : Nat) (uid info gt : String) (x : (String × Rat) × Bool) : Row :=
  { uid := uid, info := info, datum := k, gtLabel := gt, gt := L.idxOf gt, pdLabel := x.1.1, pd := L.idxOf x.1.1, score := x.1.2,
    winner := x.2, isMatch := decide (gt = x.1.1) }

theorem rowsOf_flag (L : List String) (k : Nat) (c : Classif) :
    rowsOf L k c = ((c.preds.zip c.scores).zipIdx.map (fun x => (x.1, argmax c.scores == x.2))).map (flagRow L k c.uid c.info c.gt) := by
  unfold rowsOf
  rw [List.map_map]
  rfl

theorem trim_zip (q : Pick) (c : Classif) :
    (q.trim c).preds.zip (q.trim c).scores = (c.preds.zip c.scores).filter (fun x => q.pd x.1 x.2) := by
  unfold Pick.trim
  dsimp only
  generalize (c.preds.zip c.scores).filter (fun x => q.pd x.1 x.2) = l
  induction l with
  | nil => rfl
  | cons x l ih => rw [List.map_cons, List.map_cons, List.zip_cons_cons, ih]

theorem map_filter_fst {α β : Type} (P : α → Bool) (f : α → Nat → β) (F : β → Bool) (hF : ∀ a i, F (f a i) = P a) (g : β → α)
    (hg : ∀ a i, g (f a i) = a) (l : List α) : ∀ n, (((l.zipIdx n).map (fun x => f x.1 x.2)).filter F).map g = l.filter P := by
  induction l with
  | nil => intro n; rfl
  | cons a l ih =>
    intro n
    rw [List.zipIdx_cons, List.map_cons, List.filter_cons, List.filter_cons]
    dsimp only
    rw [hF a n]
    by_cases h : P a = true
    · rw [if_pos h, if_pos h, List.map_cons, hg, ih]
    · rw [if_neg h, if_neg h, ih]

/-- Whether the row satisfies the conditions. -/
def Pick.rowOk (q : Pick) (r : Row) : Bool := q.datum r.uid r.info && q.gt r.gtLabel && q.pd r.pdLabel r.score

theorem filter_takes {q : Pick} {c : Classif} (ht : q.takes c = true) (L : List String) (k : Nat) :
    (rowsOf L k c).filter q.rowOk =
      (((c.preds.zip c.scores).zipIdx.map (fun x => (x.1, argmax c.scores == x.2))).filter (fun y => q.pd y.1.1 y.1.2)).map
        (flagRow L k c.uid c.info c.gt) := by
  rw [rowsOf_flag, List.filter_map]
  congr 1
  apply List.filter_congr
  rintro y -
  unfold Pick.takes at ht
  simp only [Function.comp, Pick.rowOk, flagRow]
  rw [ht, Bool.true_and]

theorem filter_leaves {q : Pick} {c : Classif} (ht : q.takes c = false) (L : List String) (k : Nat) :
    (rowsOf L k c).filter q.rowOk = [] := by
  rw [rowsOf_flag, List.filter_map, List.map_eq_nil_iff, List.filter_eq_nil_iff]
  rintro y -
  unfold Pick.takes at ht
  simp only [Function.comp, Pick.rowOk, flagRow]
  rw [ht]
  simp

/-- The rows of a selected classification that satisfy the conditions are those of the trimmed one, up to the flag. -/
theorem filter_unflag {q : Pick} {c : Classif} (ht : q.takes c = true) (L : List String) (k : Nat) :
    ((rowsOf L k c).filter q.rowOk).map unflag = (rowsOf L k (q.trim c)).map unflag := by
  rw [filter_takes ht, rowsOf_flag, trim_zip, List.map_map, List.map_map]
  have h1 : unflag ∘ flagRow L k c.uid c.info c.gt = (fun x => flagRow L k c.uid c.info c.gt (x, false)) ∘ Prod.fst := rfl
  have h2 : unflag ∘ flagRow L k (q.trim c).uid (q.trim c).info (q.trim c).gt
      = (fun x => flagRow L k c.uid c.info c.gt (x, false)) ∘ Prod.fst := rfl
  rw [h1, h2, ← List.map_map, ← List.map_map,
    map_filter_fst (fun x : String × Rat => q.pd x.1 x.2) (fun a i => (a, argmax c.scores == i)) (fun y => q.pd y.1.1 y.1.2)
      (fun _ _ => rfl) Prod.fst (fun _ _ => rfl)]
  congr 1
  rw [List.map_map]
  exact (List.zipIdx_map_fst 0 _).symm

/-- The flags of a list whose winner stands after `a`. -/
theorem flags_split (a b : List (String × Rat)) (w : String × Rat) :
    (a ++ w :: b).zipIdx.map (fun x => (x.1, a.length == x.2)) = a.map (fun x => (x, false)) ++ (w, true) :: b.map (fun x => (x, false)) := by
  rw [List.zipIdx_append, List.map_append, List.zipIdx_cons, List.map_cons]
  congr 1
  · apply List.ext_getElem (by simp)
    intro i h1 h2
    have : i < a.length := by simpa using h2
    simp
    omega
  · congr 1
    · simp
    · apply List.ext_getElem (by simp)
      intro i h1 h2
      simp
      omega

theorem argmax_split {xs : List (String × Rat)} (hne : xs ≠ []) :
    ∃ a w b, xs = a ++ w :: b ∧ argmax (xs.map Prod.snd) = a.length ∧ (∀ x ∈ a, x.2 < w.2) ∧ ∀ x ∈ b, x.2 ≤ w.2 := by
  obtain ⟨v, h1, h2, h3⟩ := argmax_spec (xs.map Prod.snd) (by simpa using hne)
  generalize argmax (xs.map Prod.snd) = i at *
  rw [List.getElem?_map, Option.map_eq_some_iff] at h1
  obtain ⟨w, hw, rfl⟩ := h1
  obtain ⟨hi, rfl⟩ := List.getElem?_eq_some_iff.1 hw
  refine ⟨xs.take i, xs[i], xs.drop (i + 1), ?_, by rw [List.length_take]; omega, ?_, ?_⟩
  · rw [← List.drop_eq_getElem_cons hi, List.take_append_drop]
  · intro x hx
    obtain ⟨j, hj, rfl⟩ := List.mem_iff_getElem.1 hx
    rw [List.length_take] at hj
    have hj' : j < xs.length := by omega
    have := h3 j (by omega) (xs[j]).2 (by simp [hj'])
    simpa using this
  · intro x hx
    exact h2 _ (List.mem_map_of_mem (List.mem_of_mem_drop hx))

theorem argmax_at {a b : List (String × Rat)} {w : String × Rat} (ha : ∀ x ∈ a, x.2 < w.2) (hb : ∀ x ∈ b, x.2 ≤ w.2) :
    argmax ((a ++ w :: b).map Prod.snd) = a.length := by
  let c : Classif := ⟨"", "", [], (a ++ w :: b).map Prod.snd, ""⟩
  refine (isWinner_argmax (c := c) (by simp [c]) a.length).1 ⟨w.2, by simp [c], ?_, ?_⟩
  · intro y hy
    obtain ⟨x, hx, rfl⟩ := List.mem_map.1 hy
    rcases List.mem_append.1 hx with h | h
    · exact le_of_lt (ha x h)
    · rcases List.mem_cons.1 h with rfl | h
      · exact le_refl _
      · exact hb x h
  · intro j hj y hy
    have hy' : ((a ++ w :: b).map Prod.snd)[j]? = some y := hy
    rw [List.getElem?_map, List.getElem?_append_left hj, Option.map_eq_some_iff] at hy'
    obtain ⟨x, hx, rfl⟩ := hy'
    exact ha x (List.mem_of_getElem? hx)

/-- If the top prediction is selected, the flags agree too. -/
theorem filter_keeps {q : Pick} {c : Classif} (hv : c.preds.length = c.scores.length) (ht : q.takes c = true)
    (htop : ∀ (i : Nat) (p : String) (s : Rat), IsWinner c i → c.preds[i]? = some p → c.scores[i]? = some s →
      q.pd p s = true ∨ (q.trim c).preds = []) (L : List String) (k : Nat) :
    (rowsOf L k c).filter q.rowOk = rowsOf L k (q.trim c) := by
  by_cases hnil : (q.trim c).preds = []
  · have h0 : rowsOf L k (q.trim c) = [] := by rw [rowsOf_flag, hnil]; rfl
    have := filter_unflag ht L k
    rw [h0, List.map_nil, List.map_eq_nil_iff] at this
    rw [this, h0]
  rw [filter_takes ht, rowsOf_flag, trim_zip]
  have e3 : (q.trim c).uid = c.uid ∧ (q.trim c).info = c.info ∧ (q.trim c).gt = c.gt := ⟨rfl, rfl, rfl⟩
  rw [e3.1, e3.2.1, e3.2.2]
  congr 1
  have hs : c.scores = (c.preds.zip c.scores).map Prod.snd := (List.map_snd_zip (by omega)).symm
  have hs' : (q.trim c).scores = ((c.preds.zip c.scores).filter (fun x => q.pd x.1 x.2)).map Prod.snd := rfl
  have hne : c.preds.zip c.scores ≠ [] := by
    intro h
    apply hnil
    unfold Pick.trim
    rw [h]
    rfl
  obtain ⟨a, w, b, hx, hm, ha, hb⟩ := argmax_split hne
  rw [← hs] at hm
  have hcs : c.scores ≠ [] := by
    intro h
    apply hne
    rw [h, List.zip_nil_right]
  have hwin : IsWinner c a.length := (isWinner_argmax hcs _).2 hm
  have hget : (c.preds.zip c.scores)[a.length]? = some w := by rw [hx]; simp
  obtain ⟨g1, g2⟩ := List.getElem?_zip_eq_some.1 hget
  have hw : q.pd w.1 w.2 = true := (htop _ _ _ hwin g1 g2).resolve_right hnil
  have hf : (c.preds.zip c.scores).filter (fun x => q.pd x.1 x.2)
      = a.filter (fun x => q.pd x.1 x.2) ++ w :: b.filter (fun x => q.pd x.1 x.2) := by
    rw [hx, List.filter_append, List.filter_cons, if_pos hw]
  have hm' : argmax (q.trim c).scores = (a.filter (fun x => q.pd x.1 x.2)).length := by
    rw [hs', hf]
    exact argmax_at (fun x h => ha x (List.mem_filter.1 h).1) (fun x h => hb x (List.mem_filter.1 h).1)
  rw [hm, hm', hf, hx, flags_split, flags_split, List.filter_append, List.filter_cons, if_pos hw, List.filter_map, List.filter_map]
  rfl

/-! ## Counts do not look at the flag without `hardmax` -/

theorem scoreMask_unflag (t : Rat) (r : Row) : scoreMask t false (unflag r) = scoreMask t false r := rfl

theorem dc_map {β : Type} [DecidableEq β] {m m' : Row → Bool} {f : Row → β} (hf : ∀ r, f (unflag r) = f r) {rows : List Row}
    (hm : ∀ r ∈ rows, m' (unflag r) = m r) (l : β) : dc (rows.map unflag) m' f l = dc rows m f l := by
  unfold dc
  have h1 : (rows.map unflag).filter m' = (rows.filter m).map unflag := by
    rw [List.filter_map]
    congr 1
    exact List.filter_congr (fun r hr => hm r hr)
  have h2 : (fun r : Row => (r.datum, f r)) ∘ unflag = fun r => (r.datum, f r) := by
    funext r
    simp only [Function.comp, hf]
    rfl
  rw [h1, List.map_map, h2]

theorem cnt_unflag (rows : List Row) (t : Rat) (l : Int) : cnt (rows.map unflag) false t l = cnt rows false t l := by
  unfold cnt
  rw [dc_map (m := fnMask t false) (fun _ => rfl) (fun _ _ => rfl), dc_map (m := tnMask t false) (fun _ => rfl) (fun _ _ => rfl),
    List.countP_map, List.countP_map]
  rfl

theorem cmC_unflag (rows : List Row) (T : List Rat) (g p : Int) : cmC (rows.map unflag) T false g p = cmC rows T false g p :=
  dc_map (fun _ => rfl) (fun _ _ => rfl) _

theorem cmU_unflag (rows : List Row) (T : List Rat) (g : Int) : cmU (rows.map unflag) T false g = cmU rows T false g := by
  unfold cmU
  apply dc_map (fun _ => rfl)
  intro r _
  unfold masksOf
  dsimp only
  rw [List.any_map]
  rfl

/-! ## Blocks with any numbers -/

theorem only_disjoint {L : List String} {x : Classif × Nat} {xs : List (Classif × Nat)} (h : x.2 ∉ xs.map Prod.snd) :
    ∀ a ∈ rowsOf L x.2 x.1, ∀ b ∈ (xs.map (fun x => rowsOf L x.2 x.1)).flatten, a.datum ≠ b.datum := by
  intro a ha b hb
  rw [datum_rowsOf a ha]
  obtain ⟨_, hb1, hb2⟩ := List.mem_flatten.1 hb
  obtain ⟨y, hy, rfl⟩ := List.mem_map.1 hb1
  rw [datum_rowsOf b hb2]
  intro e
  rw [Int.natCast_inj] at e
  exact h (e ▸ List.mem_map_of_mem hy)

theorem cm_only {L : List String} (h : Bool) (t : Rat) {g p : String} (hg : g ∈ L) (hp : p ∈ L) (xs : List (Classif × Nat))
    (hnd : (xs.map Prod.snd).Nodup) (hc : ∀ x ∈ xs, Covers L x.1) :
    cmC (xs.map (fun x => rowsOf L x.2 x.1)).flatten [t] h (L.idxOf g : Nat) (L.idxOf p : Nat) = specCell (xs.map Prod.fst) t h g p ∧
    cmU (xs.map (fun x => rowsOf L x.2 x.1)).flatten [t] h (L.idxOf g : Nat) = specMissed (xs.map Prod.fst) t h g := by
  induction xs with
  | nil => exact ⟨rfl, rfl⟩
  | cons x xs ih =>
    rw [List.map_cons, List.nodup_cons] at hnd
    obtain ⟨i1, i2⟩ := ih hnd.2 (fun d hd => hc d (by simp [hd]))
    rw [List.map_cons, List.flatten_cons, cmC_append (only_disjoint hnd.1), cmU_append (only_disjoint hnd.1), i1, i2,
      cmC_block (hc x (by simp)) x.2 h t hg hp, cmU_block (hc x (by simp)) x.2 h t]
    simp only [specCell, specMissed, List.map_cons, List.countP_cons, List.countP_nil]
    exact ⟨by omega, by omega⟩

theorem datums_only {L : List String} (xs : List (Classif × Nat)) (hnd : (xs.map Prod.snd).Nodup) (hc : ∀ x ∈ xs, Covers L x.1) :
    ((xs.map (fun x => rowsOf L x.2 x.1)).flatten.map Row.datum).dedup.length = xs.length := by
  induction xs with
  | nil => rfl
  | cons x xs ih =>
    rw [List.map_cons, List.nodup_cons] at hnd
    have hdis := only_disjoint (L := L) hnd.1
    rw [List.map_cons, List.flatten_cons, List.map_append, List.Disjoint.dedup_append, List.length_append,
      ih hnd.2 (fun d hd => hc d (by simp [hd]))]
    · have h1 : (rowsOf L x.2 x.1).map Row.datum = List.replicate (rowsOf L x.2 x.1).length (x.2 : Int) := by
        rw [List.eq_replicate_iff]
        refine ⟨by simp, ?_⟩
        intro b hb
        obtain ⟨r, hr, rfl⟩ := List.mem_map.1 hb
        exact datum_rowsOf r hr
      obtain ⟨r, hr⟩ := exists_row (hc x (by simp)) x.2
      rw [h1, List.replicate_dedup]
      · simp; omega
      · exact fun h => by rw [List.length_eq_zero_iff] at h; rw [h] at hr; exact absurd hr (by simp)
    · intro d h1 h2
      obtain ⟨a, ha, rfl⟩ := List.mem_map.1 h1
      obtain ⟨b, hb, he⟩ := List.mem_map.1 h2
      exact hdis a ha b hb he.symm

/-! ## The filtered rows -/

/-- The selected classifications with their numbers. -/
def Pick.kept (q : Pick) (xs : List (Classif × Nat)) : List (Classif × Nat) :=
  ((xs.filter (fun x => q.takes x.1)).map (fun x => (q.trim x.1, x.2))).filter (fun x => !x.1.preds.isEmpty)

theorem pick_fst (q : Pick) (xs : List (Classif × Nat)) : (q.kept xs).map Prod.fst = q.only (xs.map Prod.fst) := by
  unfold Pick.kept Pick.only
  rw [List.filter_map, List.filter_map, List.filter_map, List.map_map, List.filter_map, List.map_map]
  rfl

theorem pick_snd (q : Pick) (xs : List (Classif × Nat)) (h : (xs.map Prod.snd).Nodup) : ((q.kept xs).map Prod.snd).Nodup := by
  have h0 : ((xs.filter (fun x => q.takes x.1)).map Prod.snd).Nodup := h.sublist (List.filter_sublist.map _)
  have h1 : (((xs.filter (fun x => q.takes x.1)).map (fun x => (q.trim x.1, x.2))).map Prod.snd).Nodup := by
    rw [List.map_map]
    exact h0
  exact h1.sublist (List.filter_sublist.map _)

theorem pick_cons (q : Pick) (x : Classif × Nat) (xs : List (Classif × Nat)) (L : List String) :
    ((q.kept (x :: xs)).map (fun x => rowsOf L x.2 x.1)).flatten
      = (if q.takes x.1 = true then rowsOf L x.2 (q.trim x.1) else []) ++ ((q.kept xs).map (fun x => rowsOf L x.2 x.1)).flatten := by
  unfold Pick.kept
  rw [List.filter_cons]
  by_cases h : q.takes x.1 = true
  · rw [if_pos h, if_pos h, List.map_cons, List.filter_cons]
    by_cases h2 : (q.trim x.1).preds = []
    · rw [if_neg (by simp [h2])]
      have : rowsOf L x.2 (q.trim x.1) = [] := by rw [rowsOf_flag, h2]; rfl
      rw [this, List.nil_append]
    · rw [if_pos (by simpa using h2), List.map_cons, List.flatten_cons]
  · rw [if_neg h, if_neg h, List.nil_append]

theorem blocks_unflag (q : Pick) (L : List String) (xs : List (Classif × Nat)) :
    ((xs.map (fun x => rowsOf L x.2 x.1)).flatten.filter q.rowOk).map unflag
      = ((q.kept xs).map (fun x => rowsOf L x.2 x.1)).flatten.map unflag := by
  induction xs with
  | nil => rfl
  | cons x xs ih =>
    rw [pick_cons, List.map_cons, List.flatten_cons, List.filter_append, List.map_append, ih, List.map_append]
    congr 1
    by_cases h : q.takes x.1 = true
    · rw [if_pos h, filter_unflag h]
    · rw [if_neg h, filter_leaves (by simpa using h)]

theorem blocks_keeps (q : Pick) (L : List String) (xs : List (Classif × Nat)) (hv : ∀ x ∈ xs, x.1.preds.length = x.1.scores.length)
    (h : q.KeepsTop (xs.map Prod.fst)) :
    (xs.map (fun x => rowsOf L x.2 x.1)).flatten.filter q.rowOk = ((q.kept xs).map (fun x => rowsOf L x.2 x.1)).flatten := by
  induction xs with
  | nil => rfl
  | cons x xs ih =>
    rw [pick_cons, List.map_cons, List.flatten_cons, List.filter_append,
      ih (fun y hy => hv y (by simp [hy])) (fun c hc => h c (by rw [List.map_cons]; exact List.mem_cons_of_mem _ hc))]
    congr 1
    by_cases ht : q.takes x.1 = true
    · rw [if_pos ht, filter_keeps (hv x (by simp)) ht (h x.1 (by simp) ht)]
    · rw [if_neg ht, filter_leaves (by simpa using ht)]

theorem covers_trim {L : List String} {c : Classif} (h : Covers L c) (q : Pick) (hne : (q.trim c).preds ≠ []) : Covers L (q.trim c) := by
  refine ⟨h.gt, ?_, by simp [Pick.trim], hne⟩
  intro p hp
  obtain ⟨x, hx, rfl⟩ := List.mem_map.1 hp
  have hx' := (List.mem_filter.1 hx).1
  exact h.preds _ (List.of_mem_zip hx').1

theorem pick_covers {L : List String} {q : Pick} {xs : List (Classif × Nat)} (h : ∀ x ∈ xs, Covers L x.1) : ∀ x ∈ q.kept xs, Covers L x.1 := by
  intro y hy
  obtain ⟨h1, h2⟩ := List.mem_filter.1 hy
  obtain ⟨x, hx, rfl⟩ := List.mem_map.1 h1
  exact covers_trim (h x (List.mem_filter.1 hx).1) q (by simpa using h2)

theorem only_covers {L : List String} {q : Pick} {cs : List Classif} (h : ∀ c ∈ cs, Covers L c) : ∀ c ∈ q.only cs, Covers L c := by
  intro y hy
  obtain ⟨h1, h2⟩ := List.mem_filter.1 hy
  obtain ⟨x, hx, rfl⟩ := List.mem_map.1 h1
  exact covers_trim (h x (List.mem_filter.1 hx).1) q (by simpa using h2)

/-- What is asked for, in terms of the rows of the selected classifications. -/
theorem filtered_rows (e : Built) (q : Pick) {d g p : Option Expr} (hq : q.Asked d g p) (hnd : ∀ c ∈ history e.calls, c.preds.Nodup) :
    (filterTables d g p e.frags).flatten.Perm
      (((history e.calls).zipIdx.map (fun x => rowsOf e.labels x.2 x.1)).flatten.filter q.rowOk) := by
  have hrows : (Loader.init.addAll e.calls).rows = (history e.calls).zipIdx.map (fun x => rowsOf e.labels x.2 x.1) := rows_reach e.calls
  have hperm := e.stored.perm
  rw [hrows] at hperm
  have hcov := covers_reach e.calls e.valid
  have hmem : ∀ r ∈ e.frags.flatten, ∃ (k : Nat) (c : Classif) (i : Nat) (v : String) (s : Rat), (history e.calls)[k]? = some c ∧
      c.preds[i]? = some v ∧ c.scores[i]? = some s ∧ r = rowOf e.labels k c i v s := by
    intro r hr
    obtain ⟨b, hb, hr⟩ := List.mem_flatten.1 (hperm.mem_iff.1 hr)
    obtain ⟨⟨c, k⟩, hx, rfl⟩ := List.mem_map.1 hb
    obtain ⟨i, v, s, h1, h2, h3⟩ := mem_rowsOf.1 hr
    exact ⟨k, c, i, v, s, by simpa using List.mem_zipIdx_iff_getElem?.1 hx, h1, h2, h3⟩
  rw [C23_filter d g p e.frags]
  · have : (fun r => Holds d r && Holds g r && Holds p r) = q.rowOk := by
      funext r
      rw [hq.datum, hq.gt, hq.pd]
      rfl
    rw [this]
    exact hperm.filter _
  · intro r hr r' hr' hd _
    obtain ⟨k, c, i, v, s, h1, _, _, rfl⟩ := hmem r hr
    obtain ⟨k', c', i', v', s', h1', _, _, rfl⟩ := hmem r' hr'
    have hk : k = k' := by simpa [rowOf] using hd
    subst hk
    rw [h1, Option.some.injEq] at h1'
    subst h1'
    rw [hq.gt, hq.gt]
    rfl
  · intro r hr r' hr' hd hp
    obtain ⟨k, c, i, v, s, h1, h2, h3, rfl⟩ := hmem r hr
    obtain ⟨k', c', i', v', s', h1', h2', h3', rfl⟩ := hmem r' hr'
    have hk : k = k' := by simpa [rowOf] using hd
    subst hk
    rw [h1, Option.some.injEq] at h1'
    subst h1'
    have hc : c ∈ history e.calls := List.mem_of_getElem? h1
    have hv : v = v' := (List.idxOf_inj ((hcov c hc).preds v (List.mem_of_getElem? h2))).1 (by simpa [rowOf, Built.labels] using hp)
    subst hv
    have hi : i = i' := by
      have hlt : i < c.preds.length := (List.getElem?_eq_some_iff.1 h2).1
      exact (List.getElem?_inj hlt (hnd c hc)).1 (h2.trans h2'.symm)
    subst hi
    rw [h3, Option.some.injEq] at h3'
    subst h3'
    rfl

theorem map_range_labels {β : Type} {L : List String} (hnd : L.Nodup) (f : Nat → β) (g : String → β) (h : ∀ v ∈ L, f (L.idxOf v) = g v) :
    (List.range L.length).map f = L.map g := by
  refine List.ext_getElem (by simp) ?_
  intro j h1 h2
  have hj : j < L.length := by simpa using h2
  rw [List.getElem_map, List.getElem_map, List.getElem_range, ← h _ (List.getElem_mem hj), hnd.idxOf_getElem j hj]

section
variable (e e' : Built) (q : Pick) {d g p : Option Expr}

theorem only_labels (hs : (history e'.calls).Perm (q.only (history e.calls))) : ∀ v ∈ e'.labels, v ∈ e.labels := by
  intro v hv
  obtain ⟨c, hc, h'⟩ := (linv_reach e'.calls).onlyUsed v hv
  obtain ⟨h1, h2, _, _⟩ := only_covers (covers_reach e.calls e.valid) c (hs.mem_iff.1 hc)
  rcases h' with rfl | h'
  · exact h1
  · exact h2 v h'

theorem only_bound (hs : (history e'.calls).Perm (q.only (history e.calls))) (hL : e.labels.length ≤ 100000) : e'.labels.length ≤ 100000 :=
  ((List.subperm_of_subset (linv_reach e'.calls).nodup (only_labels e e' q hs)).length_le).trans hL

/-- The filtered rows, as far as counting is concerned. -/
theorem filtered_eval (hq : q.Asked d g p) (hnd : ∀ c ∈ history e.calls, c.preds.Nodup) {frags : List (List Row)}
    (hf : FragmentsOf frags (filterTables d g p e.frags).flatten) (hm : Bool) (hk : hm = false ∨ q.KeepsTop (history e.calls)) (t : Rat) :
    (e.labels.length ≤ 100000 → evalCounts frags [t] hm e.labels.length = some [e.labels.map (countsOf (q.only (history e.calls)) hm t)]) ∧
    evalCM frags [t] hm e.labels.length
      = some [⟨e.labels.map (fun a => e.labels.map (fun b => specCell (q.only (history e.calls)) t hm a b)),
               e.labels.map (fun a => specMissed (q.only (history e.calls)) t hm a)⟩] ∧
    numberOfDatums frags = (q.only (history e.calls)).length := by
  have hcov := covers_reach e.calls e.valid
  have hLnd : e.labels.Nodup := (linv_reach e.calls).nodup
  have hp := filtered_rows e q hq hnd
  set R := ((history e.calls).zipIdx.map (fun x => rowsOf e.labels x.2 x.1)).flatten.filter q.rowOk with hR
  set xs := (history e.calls).zipIdx with hxs
  set K := ((q.kept xs).map (fun x => rowsOf e.labels x.2 x.1)).flatten with hK
  have hf' : FragmentsOf frags R := ⟨hf.perm.trans hp, hf.aligned⟩
  have hin : InRange R e.labels.length := by
    intro r hr
    apply inRange_reach e.calls r
    rw [rows_reach e.calls]
    exact (List.mem_filter.1 hr).1
  have hmem : ∀ x ∈ xs, x.1 ∈ history e.calls := by
    rintro ⟨c, k⟩ hx
    exact List.mem_of_getElem? (by simpa using List.mem_zipIdx_iff_getElem?.1 hx)
  have hfst : xs.map Prod.fst = history e.calls := List.zipIdx_map_fst 0 _
  have hsnd : (xs.map Prod.snd).Nodup := by
    rw [hxs, List.zipIdx_map_snd 0 _]
    exact List.nodup_range'
  have hkc : ∀ x ∈ q.kept xs, Covers e.labels x.1 := pick_covers (fun x hx => hcov _ (hmem x hx))
  have hks := pick_snd q xs hsnd
  have hkf : (q.kept xs).map Prod.fst = q.only (history e.calls) := by rw [pick_fst, hfst]
  have hu : R.map unflag = K.map unflag := blocks_unflag q e.labels xs
  have hsame : (∀ l, cnt R hm t l = cnt K hm t l) ∧ (∀ a b, cmC R [t] hm a b = cmC K [t] hm a b) ∧ (∀ a, cmU R [t] hm a = cmU K [t] hm a) := by
    rcases hk with rfl | hk
    · refine ⟨fun l => ?_, fun a b => ?_, fun a => ?_⟩
      · rw [← cnt_unflag, hu, cnt_unflag]
      · rw [← cmC_unflag, hu, cmC_unflag]
      · rw [← cmU_unflag, hu, cmU_unflag]
    · have : R = K := blocks_keeps q e.labels xs (fun x hx => (hcov _ (hmem x hx)).valid) (by rw [hfst]; exact hk)
      rw [this]
      exact ⟨fun _ => rfl, fun _ _ => rfl, fun _ => rfl⟩
  refine ⟨fun hL => ?_, ?_, ?_⟩
  · rw [evalCounts_eq hin hf', List.map_cons, List.map_nil]
    congr 2
    apply map_range_labels hLnd (fun l => cnt R hm t (l : Int))
    intro v hv
    rw [hsame.1, cnt_kept hL hv hm t (q.kept xs) hks hkc, hkf]
    rfl
  · rw [evalCM_eq hin hf' (by simp)]
    have hpre : prefixes [t] = [[t]] := rfl
    rw [hpre, List.map_cons, List.map_nil]
    congr 2
    unfold cmTab
    rw [CM.mk.injEq]
    constructor
    · apply map_range_labels hLnd (fun a => (List.range e.labels.length).map (fun b : Nat => cmC R [t] hm (a : Int) (b : Int)))
      intro v hv
      apply map_range_labels hLnd
      intro w hw
      rw [hsame.2.1, (cm_only hm t hv hw (q.kept xs) hks hkc).1, hkf]
    · apply map_range_labels hLnd (fun a => cmU R [t] hm (a : Int))
      intro v hv
      rw [hsame.2.2, (cm_only hm t hv hv (q.kept xs) hks hkc).2, hkf]
  · rw [numberOfDatums_eq hf']
    have h1 : R.map Row.datum = K.map Row.datum := by
      have := congrArg (List.map Row.datum) hu
      rw [List.map_map, List.map_map] at this
      exact this
    rw [h1, datums_only (q.kept xs) hks hkc, ← hkf, List.length_map]

/-- **C123 (counts, partial: without `hardmax`, or if the top predictions are selected; no label predicted twice for a datum).** A
classification evaluator is filtered by conditions on datums, ground truths and predictions. At every threshold its counts, number of datums
and accuracy are those of an evaluator of the selected classifications with their selected predictions, added by any calls in any order; for
every label of the latter all metrics agree, and the other labels count nothing. -/
theorem C123_counts_partial (hs : (history e'.calls).Perm (q.only (history e.calls))) (hL : e.labels.length ≤ 100000)
    (hq : q.Asked d g p) (hnd : ∀ c ∈ history e.calls, c.preds.Nodup) {frags : List (List Row)}
    (hf : FragmentsOf frags (filterTables d g p e.frags).flatten) (hm : Bool) (hk : hm = false ∨ q.KeepsTop (history e.calls)) (t : Rat) :
    numberOfDatums frags = numberOfDatums e'.frags ∧
    ∃ m m', computePrecisionRecall frags [t] hm e.labels.length none = some [m] ∧ e'.metrics t hm = some m' ∧ m.accuracy = m'.accuracy ∧
      m.labels.map LabelMetrics.counts = e.labels.map (e'.counts t hm) ∧
      (∀ v ∈ e'.labels, m.labels[e.labels.idxOf v]? = e'.metricsOf t hm v) ∧ ∀ v ∈ e.labels, v ∉ e'.labels → e'.counts t hm v = Counts.zero := by
  have hL' := only_bound e e' q hs hL
  have hcov := covers_reach e.calls e.valid
  have hcnt : countsOf (q.only (history e.calls)) hm t = countsOf (history e'.calls) hm t := by rw [countsOf_perm hs]
  obtain ⟨h1, -, h3⟩ := filtered_eval e q hq hnd hf hm hk t
  specialize h1 hL
  have hn : numberOfDatums frags = (history e'.calls).length := by rw [h3, hs.length_eq]
  refine ⟨by rw [hn, numberOfDatums_reach e'.calls e'.valid e'.stored],
    toMetrics (history e'.calls).length (e.labels.map (countsOf (history e'.calls) hm t)), _, ?_, e'.metrics_eq hL' t hm, ?_, ?_, ?_, ?_⟩
  · unfold computePrecisionRecall
    rw [if_neg (by simp)]
    dsimp only
    rw [h1, hn, hcnt]
    rfl
  · have hc1 : ∀ c ∈ history e'.calls, Covers e.labels c := fun c hc => only_covers hcov c (hs.mem_iff.1 hc)
    have a1 := accuracy_datums (linv_reach e.calls).nodup hc1 hm t
    have a2 := accuracy_datums (linv_reach e'.calls).nodup (covers_reach e'.calls e'.valid) hm t
    rw [← a2] at a1
    by_cases h0 : ((history e'.calls).length : Rat) = 0
    · have h0' : (history e'.calls).length = 0 := by exact_mod_cast h0
      simp [toMetrics, accuracy_eq, h0']
    · exact mul_right_cancel₀ h0 a1
  · simp only [toMetrics, List.map_map]
    apply List.map_congr_left
    intro v _
    rw [e'.counts_eq hL']
    rfl
  · intro v hv
    rw [e'.metricsOf_eq hL', if_pos hv]
    simp only [toMetrics, List.map_map]
    rw [getElem?_idxOf_map, if_pos (only_labels e e' q hs v hv)]
    rfl
  · intro v _ hv
    rw [e'.counts_eq hL', countsOf_zero (covers_reach e'.calls e'.valid) hm t hv]

/-- **C123 (confusion matrix, partial as above).** The cells and the unmatched ground truths of the filtered evaluator are those of an
evaluator of the selected classifications, for any number of labels. -/
theorem C123_matrix_partial (hs : (history e'.calls).Perm (q.only (history e.calls))) (hq : q.Asked d g p)
    (hnd : ∀ c ∈ history e.calls, c.preds.Nodup) {frags : List (List Row)} (hf : FragmentsOf frags (filterTables d g p e.frags).flatten)
    (hm : Bool) (hk : hm = false ∨ q.KeepsTop (history e.calls)) (t : Rat) :
    evalCM frags [t] hm e.labels.length
      = some [⟨e.labels.map (fun a => e.labels.map (fun b => e'.cell t hm a b)), e.labels.map (fun a => e'.missed t hm a)⟩] := by
  classical
  rw [(filtered_eval e q hq hnd hf hm hk t).2.1]
  simp only [Built.cell_eq, Built.missed_eq]
  unfold specCell specMissed
  simp only [hs.countP_eq]

end

/-- **C123 (scores).** A condition that only asks for a score of at least `s` keeps the top prediction of every classification of which it
keeps anything, so C123 holds of it with `hardmax` too. -/
theorem C123_score_keeps (dt : String → String → Bool) (gt : String → Bool) (s : Rat) (cs : List Classif) :
    (Pick.mk dt gt (fun _ x => decide (s ≤ x))).KeepsTop cs := by
  intro c _ _ i p x hw hp hx
  by_cases h : s ≤ x
  · exact Or.inl (by simpa using h)
  · right
    obtain ⟨v, h1, h2, _⟩ := hw
    rw [hx, Option.some.injEq] at h1
    subst h1
    unfold Pick.trim
    dsimp only
    rw [List.map_eq_nil_iff, List.filter_eq_nil_iff]
    intro y hy
    have := h2 y.2 (List.of_mem_zip hy).2
    simp only [decide_eq_true_eq, not_le]
    exact lt_of_le_of_lt this (not_le.1 h)

/-! ## Where it is false -/

/-- The full statement of C123 for one `hardmax` setting and histories satisfying `P`. -/
def CountsOfSelected (hm : Bool) (P : List Classif → Prop) : Prop :=
  ∀ (e e' : Built) (q : Pick) (d g p : Option Expr) (frags : List (List Row)) (t : Rat),
    (history e'.calls).Perm (q.only (history e.calls)) → e.labels.length ≤ 100000 → q.Asked d g p → P (history e.calls) →
    FragmentsOf frags (filterTables d g p e.frags).flatten →
    evalCounts frags [t] hm e.labels.length = some [e.labels.map (e'.counts t hm)]

/-- An evaluator with all rows in one table. -/
def oneTable (calls : List (List Classif)) (hv : ∀ c ∈ calls.flatten, c.valid = true) : Built :=
  ⟨calls, hv, [(Loader.init.addAll calls).rows.flatten], ⟨by rw [List.flatten_singleton], List.pairwise_singleton _ _⟩⟩

/-- A datum whose top prediction is wrong. -/
def wrongTop : List (List Classif) := [[⟨"d", "a", ["a", "b"], [4/10, 6/10], ""⟩]]

/-- The same datum with the right prediction only. -/
def rightOnly : List (List Classif) := [[⟨"d", "a", ["a"], [4/10], ""⟩]]

/-- The predictions of `a`. -/
def pickA : Pick := ⟨fun _ _ => true, fun _ => true, fun v _ => decide (v = "a")⟩

/-- The condition of `pickA`. -/
def predA : Option Expr := some (fun r => decide (r.pdLabel = "a"))

theorem predA_asked : pickA.Asked none none predA := ⟨fun _ => rfl, fun _ => rfl, fun _ => rfl⟩

/-- **C123, violated with `hardmax`.** The flag of the top prediction is not recomputed: after the top prediction `b` is filtered out the
datum has no winner, and the remaining prediction of `a`, a true positive on its own, is a false negative. -/
theorem C123_hardmax_violation : ¬ CountsOfSelected true (fun cs => ∀ c ∈ cs, c.preds.Nodup) := by
  intro h
  have h1 : (history rightOnly).Perm (pickA.only (history wrongTop)) := by decide +kernel
  have h2 : (Loader.init.addAll wrongTop).labels.length ≤ 100000 := by decide +kernel
  have h3 : ∀ c ∈ history wrongTop, c.preds.Nodup := by decide +kernel
  have h4 : evalCounts (filterTables none none predA (oneTable wrongTop (by decide +kernel)).frags) [0] true
      (oneTable wrongTop (by decide +kernel)).labels.length
      ≠ some [(oneTable wrongTop (by decide +kernel)).labels.map ((oneTable rightOnly (by decide +kernel)).counts 0 true)] := by decide +kernel
  exact h4 (h (oneTable wrongTop (by decide +kernel)) (oneTable rightOnly (by decide +kernel)) pickA none none predA _ 0 h1 h2 predA_asked h3
    ⟨.refl _, List.pairwise_singleton _ _⟩)

/-- A datum for which `a` is predicted twice. -/
def twiceA : List (List Classif) := [[⟨"d", "a", ["a", "a"], [9/10, 1/10], ""⟩]]

/-- The same datum with the good prediction only. -/
def onceA : List (List Classif) := [[⟨"d", "a", ["a"], [9/10], ""⟩]]

/-- The good predictions. -/
def pickGood : Pick := ⟨fun _ _ => true, fun _ => true, fun _ s => decide (1/2 ≤ s)⟩

/-- The condition of `pickGood`. -/
def predGood : Option Expr := some (fun r => decide (1/2 ≤ r.score))

theorem predGood_asked : pickGood.Asked none none predGood := ⟨fun _ => rfl, fun _ => rfl, fun _ => rfl⟩

/-- **C123, violated for a label predicted twice.** Predictions are told apart by datum and label only, so the second prediction of the label
survives a condition on the score that it does not meet. -/
theorem C123_doubled_violation : ¬ CountsOfSelected false (fun _ => True) := by
  intro h
  have h1 : (history onceA).Perm (pickGood.only (history twiceA)) := by decide +kernel
  have h2 : (Loader.init.addAll twiceA).labels.length ≤ 100000 := by decide +kernel
  have h4 : evalCounts (filterTables none none predGood (oneTable twiceA (by decide +kernel)).frags) [0] false
      (oneTable twiceA (by decide +kernel)).labels.length
      ≠ some [(oneTable twiceA (by decide +kernel)).labels.map ((oneTable onceA (by decide +kernel)).counts 0 false)] := by decide +kernel
  exact h4 (h (oneTable twiceA (by decide +kernel)) (oneTable onceA (by decide +kernel)) pickGood none none predGood _ 0 h1 h2 predGood_asked trivial
    ⟨.refl _, List.pairwise_singleton _ _⟩)

/-- Three datums: one loses a prediction, one loses both. -/
def mixedTop : List (List Classif) :=
  [[⟨"d", "a", ["a", "b"], [4/10, 6/10], ""⟩, ⟨"e", "b", ["a", "b"], [2/10, 3/10], ""⟩], [⟨"f", "a", ["a", "b", "c"], [9/10, 6/10, 1/10], ""⟩]]

/-- The hypotheses of `C123_counts_partial` and `C123_matrix_partial` hold with `hardmax` for a condition that removes predictions and a
datum. -/
example : ∃ (e e' : Built) (frags : List (List Row)), e.calls = mixedTop ∧ (history e'.calls).Perm (pickGood.only (history e.calls)) ∧
    (history e'.calls).length = 2 ∧ e.labels.length ≤ 100000 ∧ pickGood.Asked none none predGood ∧ (∀ c ∈ history e.calls, c.preds.Nodup) ∧
    FragmentsOf frags (filterTables none none predGood e.frags).flatten ∧ pickGood.KeepsTop (history e.calls) := by
  have h1 : (history [pickGood.only (history mixedTop)]).Perm (pickGood.only (history mixedTop)) := by decide +kernel
  have h2 : (history [pickGood.only (history mixedTop)]).length = 2 := by decide +kernel
  have h3 : (Loader.init.addAll mixedTop).labels.length ≤ 100000 := by decide +kernel
  have h4 : ∀ c ∈ history mixedTop, c.preds.Nodup := by decide +kernel
  exact ⟨oneTable mixedTop (by decide +kernel), oneTable [pickGood.only (history mixedTop)] (by decide +kernel),
    filterTables none none predGood [(Loader.init.addAll mixedTop).rows.flatten], rfl, h1, h2, h3, predGood_asked, h4,
    ⟨.refl _, List.pairwise_singleton _ _⟩, C123_score_keeps _ _ _ _⟩

/-- A condition on labels may drop the top prediction. -/
example : ¬ pickA.KeepsTop (history wrongTop) := by
  intro h
  have := h ⟨"d", "a", ["a", "b"], [4/10, 6/10], ""⟩ (by decide +kernel) (by decide +kernel) 1 "b" (6/10)
    ((isWinner_argmax (by simp) 1).2 (by decide +kernel)) rfl rfl
  revert this
  decide +kernel

end Verif.Classification
