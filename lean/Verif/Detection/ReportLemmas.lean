import Verif.Detection.Report
import Verif.Detection.ApProps

/-! # The threshold loops compute the entries of the single-threshold model -/

namespace Verif.Detection

open Verif.Classification (unique)

/-! ## The loop over the score thresholds -/

theorem put_same {α : Type} (a : Nat → α) (i : Nat) (v : α) : put a i v i = v := if_pos rfl

theorem put_other {α : Type} (a : Nat → α) {i k : Nat} (v : α) (h : k ≠ i) : put a i v k = a k := if_neg h

theorem firstMask_eq (t s : Rat) (rows : List RRow) (seen : List (List Int)) :
    firstMask seen (rows.zip (rows.map (tpInner t s))) = truePositives t s seen rows := by
  induction rows generalizing seen with
  | nil => rfl
  | cons r rs ih =>
    rw [List.map_cons, List.zip_cons_cons, firstMask, truePositives, ih, ih]

theorem zipWith_map_map {α : Type} (f : Bool → Bool → Bool) (p q : α → Bool) (l : List α) :
    List.zipWith f (l.map p) (l.map q) = l.map (fun x => f (p x) (q x)) := by
  induction l with
  | nil => rfl
  | cons x l ih => simp [ih]

theorem bincount_tp (t s : Rat) (rows : List RRow) (l : Int) :
    bincount rows (truePositives t s [] rows) l = tpCount t s rows l := rfl

theorem bincount_zip (rows : List RRow) (m : List Bool) (hm : m.length = rows.length) (f : RRow → Bool → Bool) (l : Int) :
    bincount rows (List.zipWith f rows m) l = ((rows.zip m).filter (fun x => decide (x.1.row.pl = l) && f x.1 x.2)).length := by
  unfold bincount
  induction rows generalizing m with
  | nil => simp
  | cons r rs ih =>
    cases m with
    | nil => simp at hm
    | cons b m =>
      rw [List.zipWith_cons_cons, List.zip_cons_cons, List.zip_cons_cons, List.filter_cons, List.filter_cons]
      have := ih m (by simpa using hm)
      split <;> simp [this]

theorem fp_mask (p q : RRow → Bool) (rows : List RRow) (m : List Bool) (hm : m.length = rows.length) :
    List.zipWith (· || ·) (rows.map p) (List.zipWith (fun a b => a && !b) (rows.map q) m)
      = List.zipWith (fun r b => p r || (q r && !b)) rows m := by
  induction rows generalizing m with
  | nil => simp
  | cons r rs ih =>
    cases m with
    | nil => simp at hm
    | cons b m => simp [ih m (by simpa using hm)]

/-- One pass of the loop writes the counts of its threshold and leaves everything else. -/
theorem scoreBody_eq (rows : List RRow) (scores : List Rat) (t : Rat) (st : ScoreLoop) (j : Nat)
    (h1 : st.tpOuter = rows.map (tpOuter t)) (h2 : st.fpOuter = rows.map (fpOuter t)) :
    scoreBody rows scores st j = { st with
      tp := put st.tp j (tpCount t (scores.getD j 0) rows), fp := put st.fp j (fpCount t (scores.getD j 0) rows) } := by
  have e1 : List.zipWith (· && ·) st.tpOuter (rows.map (fun r => decide (r.row.score ≥ scores.getD j 0)))
      = rows.map (tpInner t (scores.getD j 0)) := by
    rw [h1, zipWith_map_map]; rfl
  have e2 : List.zipWith (· && ·) st.fpOuter (rows.map (fun r => decide (r.row.score ≥ scores.getD j 0)))
      = rows.map (fpInner t (scores.getD j 0)) := by
    rw [h2, zipWith_map_map]; rfl
  have e3 : bincount rows (List.zipWith (fun r b => fpInner t (scores.getD j 0) r || (tpInner t (scores.getD j 0) r && !b)) rows
      (truePositives t (scores.getD j 0) [] rows)) = fpCount t (scores.getD j 0) rows := by
    funext l
    rw [bincount_zip rows _ (truePositives_length _ _ _ _)]
    rfl
  unfold scoreBody
  dsimp only
  rw [e1, e2, firstMask_eq, fp_mask _ _ _ _ (truePositives_length _ _ _ _), e3]
  rfl

theorem scoreLoop_eq (rows : List RRow) (scores : List Rat) (t : Rat) (tp0 fp0 : Nat → Int → Nat) (k : Nat) :
    let st := (List.range k).foldl (scoreBody rows scores) ⟨rows.map (tpOuter t), rows.map (fpOuter t), tp0, fp0⟩
    st.tpOuter = rows.map (tpOuter t) ∧ st.fpOuter = rows.map (fpOuter t) ∧
    (∀ j, j < k → st.tp j = tpCount t (scores.getD j 0) rows ∧ st.fp j = fpCount t (scores.getD j 0) rows) ∧
    (∀ j, k ≤ j → st.tp j = tp0 j ∧ st.fp j = fp0 j) := by
  induction k with
  | zero => exact ⟨rfl, rfl, fun j h => absurd h (by omega), fun j _ => ⟨rfl, rfl⟩⟩
  | succ k ih =>
    dsimp only at ih ⊢
    rw [List.range_succ, List.foldl_append, List.foldl_cons, List.foldl_nil]
    generalize (List.range k).foldl (scoreBody rows scores) ⟨rows.map (tpOuter t), rows.map (fpOuter t), tp0, fp0⟩ = st at *
    obtain ⟨h1, h2, h3, h4⟩ := ih
    rw [scoreBody_eq rows scores t st k h1 h2]
    refine ⟨h1, h2, ?_, ?_⟩
    · intro j hj
      by_cases hjk : j = k
      · subst hjk
        exact ⟨put_same _ _ _, put_same _ _ _⟩
      · dsimp only
        rw [put_other _ _ hjk, put_other _ _ hjk]
        exact h3 j (by omega)
    · intro j hj
      dsimp only
      rw [put_other _ _ (by omega), put_other _ _ (by omega)]
      exact h4 j (by omega)

/-! ## The loop over the labels -/

/-- The entries of the rows of a label. -/
def sel {α : Type} (l : Int) (rows : List RRow) (xs : List α) : List α :=
  ((rows.zip xs).filter (fun x => decide (x.1.row.pl = l))).map Prod.snd

theorem sel_cons {α : Type} (l : Int) (r : RRow) (rows : List RRow) (x : α) (xs : List α) :
    sel l (r :: rows) (x :: xs) = if r.row.pl = l then x :: sel l rows xs else sel l rows xs := by
  unfold sel
  rw [List.zip_cons_cons, List.filter_cons]
  by_cases h : r.row.pl = l <;> simp [h]

theorem sel_map {α : Type} (l : Int) (rows : List RRow) (f : RRow → α) :
    sel l rows (rows.map f) = (rows.filter (fun r => decide (r.row.pl = l))).map f := by
  induction rows with
  | nil => rfl
  | cons r rs ih =>
    rw [List.map_cons, sel_cons, List.filter_cons, ih]
    by_cases h : r.row.pl = l <;> simp [h]

theorem fill_length (m : List Bool) (s : Nat) (a : List Nat) : (fill m s a).length = a.length := by
  induction m generalizing s a with
  | nil => cases a <;> rfl
  | cons b m ih =>
    cases a with
    | nil => rfl
    | cons x a =>
      rw [fill]
      split <;> simp [ih]

theorem sel_fill_same (l : Int) (rows : List RRow) (m : List Bool) (s : Nat) (a : List Nat)
    (hm : m.length = rows.length) (ha : a.length = rows.length) :
    sel l rows (fill (List.zipWith (· && ·) (rows.map (fun r => decide (r.row.pl = l))) m) s a)
      = fill (sel l rows m) s (sel l rows a) := by
  induction rows generalizing m s a with
  | nil => simp [sel, fill]
  | cons r rs ih =>
    cases m with
    | nil => simp at hm
    | cons b m =>
      cases a with
      | nil => simp at ha
      | cons x a =>
        have hm' : m.length = rs.length := by simpa using hm
        have ha' : a.length = rs.length := by simpa using ha
        rw [List.map_cons, List.zipWith_cons_cons, fill, sel_cons, sel_cons]
        by_cases h : r.row.pl = l
        · simp only [h, decide_true, Bool.true_and, if_true]
          rw [fill]
          cases b
          · rw [if_neg (by simp), if_neg (by simp), sel_cons, if_pos h, ih m s a hm' ha']
          · rw [if_pos rfl, if_pos rfl, sel_cons, if_pos h, ih m (s + 1) a hm' ha']
        · simp only [h, decide_false, Bool.false_and, if_false]
          rw [if_neg (by simp), sel_cons, if_neg h, ih m s a hm' ha']

theorem sel_fill_other {l l' : Int} (hl : l' ≠ l) (rows : List RRow) (m : List Bool) (s : Nat) (a : List Nat)
    (hm : m.length = rows.length) (ha : a.length = rows.length) :
    sel l rows (fill (List.zipWith (· && ·) (rows.map (fun r => decide (r.row.pl = l'))) m) s a) = sel l rows a := by
  induction rows generalizing m s a with
  | nil => simp [sel]
  | cons r rs ih =>
    cases m with
    | nil => simp at hm
    | cons b m =>
      cases a with
      | nil => simp at ha
      | cons x a =>
        have hm' : m.length = rs.length := by simpa using hm
        have ha' : a.length = rs.length := by simpa using ha
        rw [List.map_cons, List.zipWith_cons_cons, fill, sel_cons]
        by_cases h : r.row.pl = l'
        · have hne : ¬ r.row.pl = l := by rw [h]; exact hl
          rw [if_neg hne]
          split
          · rw [sel_cons, if_neg hne, ih m _ a hm' ha']
          · rw [sel_cons, if_neg hne, ih m _ a hm' ha']
        · simp only [h, decide_false, Bool.false_and]
          rw [if_neg (by simp), sel_cons, ih m s a hm' ha']

theorem count_and (l : Int) (rows : List RRow) (m : List Bool) (hm : m.length = rows.length) :
    (List.zipWith (· && ·) (rows.map (fun r => decide (r.row.pl = l))) m).count true = (sel l rows m).count true := by
  induction rows generalizing m with
  | nil => simp [sel]
  | cons r rs ih =>
    cases m with
    | nil => simp at hm
    | cons b m =>
      have := ih m (by simpa using hm)
      rw [List.map_cons, List.zipWith_cons_cons, List.count_cons, sel_cons, this]
      by_cases h : r.row.pl = l
      · rw [if_pos h, List.count_cons]; simp [h]
      · simp [h]

theorem and_true_mask (rows : List RRow) (p : RRow → Bool) :
    rows.map p = List.zipWith (· && ·) (rows.map p) (rows.map (fun _ => true)) := by
  rw [zipWith_map_map]
  simp

/-- The loop over the labels: the entries of a label depend on this label's running counts alone. -/
theorem labelLoop_eq (rows : List RRow) (tpo : List Bool) (htpo : tpo.length = rows.length) (ls : List Int) (hnd : ls.Nodup)
    (st : LabelLoop) (h1 : st.total.length = rows.length) (h2 : st.tp.length = rows.length) :
    let r := ls.foldl (labelBody rows tpo) st
    r.total.length = rows.length ∧ r.tp.length = rows.length ∧
    (∀ l, l ∈ ls →
      r.run l = ((st.run l).1 + (rows.filter (fun r => decide (r.row.pl = l))).length, (st.run l).2 + (sel l rows tpo).count true) ∧
      sel l rows r.total = fill (sel l rows (rows.map (fun _ => true))) ((st.run l).1 + 1) (sel l rows st.total) ∧
      sel l rows r.tp = fill (sel l rows tpo) ((st.run l).2 + 1) (sel l rows st.tp)) ∧
    (∀ l, l ∉ ls → r.run l = st.run l ∧ sel l rows r.total = sel l rows st.total ∧ sel l rows r.tp = sel l rows st.tp) := by
  induction ls generalizing st with
  | nil => exact ⟨h1, h2, fun l h => absurd h (by simp), fun l _ => ⟨rfl, rfl, rfl⟩⟩
  | cons k ks ih =>
    rw [List.nodup_cons] at hnd
    have hb1 : (labelBody rows tpo st k).total.length = rows.length := by
      unfold labelBody; dsimp only; rw [fill_length]; exact h1
    have hb2 : (labelBody rows tpo st k).tp.length = rows.length := by
      unfold labelBody; dsimp only; rw [fill_length]; exact h2
    have hsame : (labelBody rows tpo st k).run k = ((st.run k).1 + (rows.filter (fun r => decide (r.row.pl = k))).length,
          (st.run k).2 + (sel k rows tpo).count true) ∧
        sel k rows (labelBody rows tpo st k).total = fill (sel k rows (rows.map (fun _ => true))) ((st.run k).1 + 1) (sel k rows st.total) ∧
        sel k rows (labelBody rows tpo st k).tp = fill (sel k rows tpo) ((st.run k).2 + 1) (sel k rows st.tp) := by
      unfold labelBody
      dsimp only
      refine ⟨?_, ?_, ?_⟩
      · rw [if_pos rfl, count_and k rows tpo htpo]
        congr 2
        rw [List.count, List.countP_map, List.countP_eq_length_filter]
        congr 1
        apply List.filter_congr
        intro r _
        simp
      · rw [and_true_mask rows (fun r => decide (r.row.pl = k)), sel_fill_same k rows _ _ _ (by simp) h1]
      · rw [sel_fill_same k rows _ _ _ htpo h2]
    have hother : ∀ l, l ≠ k → (labelBody rows tpo st k).run l = st.run l ∧
        sel l rows (labelBody rows tpo st k).total = sel l rows st.total ∧
        sel l rows (labelBody rows tpo st k).tp = sel l rows st.tp := by
      intro l hl
      unfold labelBody
      dsimp only
      refine ⟨if_neg hl, ?_, ?_⟩
      · rw [and_true_mask rows (fun r => decide (r.row.pl = k)), sel_fill_other (Ne.symm hl) rows _ _ _ (by simp) h1]
      · rw [sel_fill_other (Ne.symm hl) rows _ _ _ htpo h2]
    obtain ⟨g1, g2, g3, g4⟩ := ih hnd.2 (labelBody rows tpo st k) hb1 hb2
    dsimp only at g1 g2 g3 g4 ⊢
    rw [List.foldl_cons]
    refine ⟨g1, g2, ?_, ?_⟩
    · intro l hl
      by_cases hlk : l = k
      · subst hlk
        obtain ⟨a1, a2, a3⟩ := g4 l hnd.1
        rw [a1, a2, a3]
        exact hsame
      · have hl' : l ∈ ks := (List.mem_cons.1 hl).resolve_left hlk
        obtain ⟨a1, a2, a3⟩ := g3 l hl'
        obtain ⟨b1, b2, b3⟩ := hother l hlk
        rw [a1, a2, a3, b1, b2, b3]
        exact ⟨rfl, rfl, rfl⟩
    · intro l hl
      rw [List.mem_cons, not_or] at hl
      obtain ⟨a1, a2, a3⟩ := g4 l hl.2
      obtain ⟨b1, b2, b3⟩ := hother l hl.1
      rw [a1, a2, a3, b1, b2, b3]
      exact ⟨rfl, rfl, rfl⟩

/-! ## The points of a label -/

/-- The point of a row with running counts `x`. -/
def pointOf (n : Nat) (r : RRow) (x : Nat × Nat) : Point :=
  ⟨(⌊recall x.1 n * 100⌋).toNat, (x.1 : Rat) / (x.2 : Rat), r.row.score⟩

theorem points_fill (t : Rat) (n : Nat) (R : List RRow) (a b : Nat) :
    (points t n a b R).1 = List.zipWith (pointOf n) R ((fill (R.map (tpOuter t)) (b + 1) (R.map (fun _ => 0))).zip
      (fill (R.map (fun _ => true)) (a + 1) (R.map (fun _ => 0)))) ∧
    (points t n a b R).2 = (a + R.length, b + (R.map (tpOuter t)).count true) := by
  induction R generalizing a b with
  | nil => exact ⟨rfl, rfl⟩
  | cons r R ih =>
    rw [points]
    dsimp only
    simp only [List.map_cons, fill, if_true]
    by_cases h : tpOuter t r = true
    · simp only [h, if_true]
      obtain ⟨h1, h2⟩ := ih (a + 1) (b + 1)
      rw [h1, h2, List.zip_cons_cons, List.zipWith_cons_cons, List.length_cons, List.count_cons]
      refine ⟨rfl, ?_⟩
      simp only [BEq.rfl, if_true, Prod.mk.injEq]
      omega
    · rw [Bool.not_eq_true] at h
      simp only [h, Bool.false_eq_true, if_false]
      obtain ⟨h1, h2⟩ := ih (a + 1) b
      rw [h1, h2, List.zip_cons_cons, List.zipWith_cons_cons, List.length_cons, List.count_cons]
      refine ⟨rfl, ?_⟩
      simp only [Prod.mk.injEq]
      constructor
      · omega
      · simp

theorem rowKeys_length (rows : List RRow) (n : Int → Nat) (tps : List Nat) (h : tps.length = rows.length) :
    (rowKeys rows n tps).length = rows.length := by
  unfold rowKeys; simp [h]

theorem rowPrecision_cons (x y : Nat) (tot tps : List Nat) :
    rowPrecision (x :: tot) (y :: tps) = (y : Rat) / (x : Rat) :: rowPrecision tot tps := by
  unfold rowPrecision
  rw [List.zipWith_cons_cons]
  by_cases h : x > 0
  · rw [if_pos h]
  · have : x = 0 := by omega
    subst this
    simp

theorem find_score (rows : List RRow) (n : Int → Nat) (tps tot : List Nat) (h1 : tps.length = rows.length)
    (h2 : tot.length = rows.length) (l : Int) (b : Nat) :
    ((rowKeys rows n tps).zip (rows.map (fun r => r.row.score))).find? (fun x => decide (x.1 = (l, b)))
      = ((List.zipWith (pointOf (n l)) (rows.filter (fun r => decide (r.row.pl = l))) ((sel l rows tps).zip (sel l rows tot))).find?
          (fun p => decide (p.bin = b))).map (fun p => ((l, b), p.score)) := by
  induction rows generalizing tps tot with
  | nil => simp [rowKeys]
  | cons r rs ih =>
    cases tps with
    | nil => simp at h1
    | cons y tps =>
      cases tot with
      | nil => simp at h2
      | cons x tot =>
        have ih' := ih tps tot (by simpa using h1) (by simpa using h2)
        unfold rowKeys at ih' ⊢
        rw [List.zipWith_cons_cons, List.map_cons, List.zip_cons_cons, List.find?_cons, sel_cons, sel_cons, List.filter_cons]
        dsimp only
        by_cases h : r.row.pl = l
        · simp only [h, decide_true, if_true]
          rw [List.zip_cons_cons, List.zipWith_cons_cons, List.find?_cons]
          by_cases hb : (⌊recall y (n l) * 100⌋).toNat = b
          · simp [hb, pointOf]
          · have : decide ((pointOf (n l) r (y, x)).bin = b) = false := by
              rw [decide_eq_false_iff_not]; exact hb
            rw [this]
            have h' : decide ((l, (⌊recall y (n l) * 100⌋).toNat) = (l, b)) = false := by
              rw [decide_eq_false_iff_not, Prod.mk.injEq]; exact fun hc => hb hc.2
            rw [h']
            exact ih'
        · have h' : decide ((r.row.pl, (⌊recall y (n r.row.pl) * 100⌋).toNat) = (l, b)) = false := by
            rw [decide_eq_false_iff_not, Prod.mk.injEq]; exact fun hc => h hc.1
          rw [h', if_neg (by simpa using h), if_neg h, if_neg h]
          exact ih'

theorem filter_prec (rows : List RRow) (n : Int → Nat) (tps tot : List Nat) (h1 : tps.length = rows.length)
    (h2 : tot.length = rows.length) (l : Int) (b : Nat) :
    (((rowKeys rows n tps).zip (rowPrecision tot tps)).filter (fun x => decide (x.1 = (l, b)))).map Prod.snd
      = ((List.zipWith (pointOf (n l)) (rows.filter (fun r => decide (r.row.pl = l))) ((sel l rows tps).zip (sel l rows tot))).filter
          (fun p => decide (p.bin = b))).map Point.prec := by
  induction rows generalizing tps tot with
  | nil => simp [rowKeys]
  | cons r rs ih =>
    cases tps with
    | nil => simp at h1
    | cons y tps =>
      cases tot with
      | nil => simp at h2
      | cons x tot =>
        have ih' := ih tps tot (by simpa using h1) (by simpa using h2)
        rw [rowPrecision_cons]
        unfold rowKeys at ih' ⊢
        rw [List.zipWith_cons_cons, List.zip_cons_cons, List.filter_cons, sel_cons, sel_cons, List.filter_cons]
        dsimp only
        by_cases h : r.row.pl = l
        · simp only [h, decide_true, if_true]
          rw [List.zip_cons_cons, List.zipWith_cons_cons, List.filter_cons]
          by_cases hb : (⌊recall y (n l) * 100⌋).toNat = b
          · rw [if_pos (by simp [hb]), if_pos (by rw [decide_eq_true_eq]; exact hb), List.map_cons, List.map_cons, ih']
            rfl
          · rw [if_neg (by simpa using hb), if_neg (by rw [decide_eq_true_eq]; exact hb)]
            exact ih'
        · rw [if_neg (by simp [h]), if_neg (by simpa using h), if_neg h, if_neg h]
          exact ih'

/-! ## The highest precision of a bin -/

/-- `np.argsort(-p)`: some order of the indices that sorts the values in descending order. -/
def IsArgsort (order : List Rat → List Nat) : Prop :=
  ∀ p : List Rat, (order p).Perm (List.range p.length) ∧
    (order p).Pairwise (fun i j => ∀ x y, p[i]? = some x → p[j]? = some y → y ≤ x)

theorem foldl_max_le {l : List Rat} {a x : Rat} (h : ∀ y ∈ l, y ≤ max a x) : (l.foldl max (max a x)) = max a x := by
  induction l with
  | nil => rfl
  | cons y l ih =>
    rw [List.foldl_cons, max_eq_left (h y (by simp))]
    exact ih (fun z hz => h z (by simp [hz]))

theorem foldl_max_perm {l m : List Rat} (h : l.Perm m) (a : Rat) : l.foldl max a = m.foldl max a :=
  h.foldl_eq' (fun x _ y _ z => by rw [max_assoc, max_assoc, max_comm x y]) a

theorem range_filterMap {α : Type} (l : List α) : (List.range l.length).filterMap (fun k => l[k]?) = l := by
  induction l using List.reverseRecOn with
  | nil => rfl
  | append_singleton l x ih =>
    rw [List.length_append, List.length_singleton, List.range_succ, List.filterMap_append]
    congr 1
    · conv => rhs; rw [← ih]
      apply List.filterMap_congr
      intro k hk
      rw [List.mem_range] at hk
      rw [List.getElem?_append_left hk]
    · simp

theorem maxFirst_prec {order : List Rat → List Nat} (ho : IsArgsort order) (keys : List (Int × Nat)) (prec : List Rat)
    (hl : keys.length = prec.length) (c : Int → Nat → Rat) (l : Int) (b : Nat) :
    maxFirst c ((order prec).filterMap (fun k => (keys.zip prec)[k]?)) l b
      = (((keys.zip prec).filter (fun x => decide (x.1 = (l, b)))).map Prod.snd).foldl max (c l b) := by
  obtain ⟨h1, h2⟩ := ho prec
  have hlen : (keys.zip prec).length = prec.length := by rw [List.length_zip, hl, Nat.min_self]
  have hperm : ((order prec).filterMap (fun k => (keys.zip prec)[k]?)).Perm (keys.zip prec) := by
    have := h1.filterMap (fun k => (keys.zip prec)[k]?)
    rw [← hlen, range_filterMap] at this
    exact this
  have hsort : ((order prec).filterMap (fun k => (keys.zip prec)[k]?)).Pairwise (fun x y => y.2 ≤ x.2) := by
    rw [List.pairwise_filterMap]
    refine h2.imp ?_
    intro i j hij x hx y hy
    rw [List.getElem?_zip_eq_some] at hx hy
    exact hij _ _ hx.2 hy.2
  generalize (order prec).filterMap (fun k => (keys.zip prec)[k]?) = kp at *
  rw [foldl_max_perm ((hperm.symm.filter _).map Prod.snd)]
  unfold maxFirst
  rw [← List.head?_filter]
  have hs := hsort.filter (fun x => decide (x.1 = (l, b)))
  generalize kp.filter (fun x => decide (x.1 = (l, b))) = q at *
  cases q with
  | nil => rfl
  | cons x q =>
    rw [List.head?_cons]
    dsimp only
    rw [List.map_cons, List.foldl_cons, foldl_max_le]
    intro y hy
    obtain ⟨z, hz, rfl⟩ := List.mem_map.1 hy
    exact le_trans ((List.pairwise_cons.1 hs).1 z hz) (le_max_right _ _)

/-! ## The loop over the IoU thresholds -/

/-- What the loops leave for IoU threshold `t` after a table `rows`, given the running counts before it. -/
structure Slot (rows : List RRow) (t : Rat) (scores : List Rat) (run0 : Int → Nat × Nat) (tp fp : Nat → Int → Nat)
    (run : Int → Nat × Nat) (total tps : List Nat) : Prop where
  tp : ∀ j, j < scores.length → tp j = tpCount t (scores.getD j 0) rows
  fp : ∀ j, j < scores.length → fp j = fpCount t (scores.getD j 0) rows
  len1 : total.length = rows.length
  len2 : tps.length = rows.length
  points : ∀ n l, (points t n (run0 l).1 (run0 l).2 (rows.filter (fun r => decide (r.row.pl = l)))) =
    (List.zipWith (pointOf n) (rows.filter (fun r => decide (r.row.pl = l))) ((sel l rows tps).zip (sel l rows total)), run l)

theorem iouBody_slot (rows : List RRow) (ious scores : List Rat) (st : IouLoop) (i : Nat)
    (h1 : st.total i = List.replicate rows.length 0) (h2 : st.tps i = List.replicate rows.length 0) :
    Slot rows (ious.getD i 0) scores (st.run i) ((iouBody rows ious scores st i).tp i) ((iouBody rows ious scores st i).fp i)
      ((iouBody rows ious scores st i).run i) ((iouBody rows ious scores st i).total i) ((iouBody rows ious scores st i).tps i) := by
  unfold iouBody
  dsimp only
  simp only [put_same]
  obtain ⟨s1, s2, s3, _⟩ := scoreLoop_eq rows scores (ious.getD i 0) (st.tp i) (st.fp i) scores.length
  generalize (List.range scores.length).foldl (scoreBody rows scores)
    ⟨rows.map (tpOuter (ious.getD i 0)), rows.map (fpOuter (ious.getD i 0)), st.tp i, st.fp i⟩ = s at *
  have hrep : List.replicate rows.length 0 = rows.map (fun _ => (0 : Nat)) := by rw [List.map_const']
  obtain ⟨r1, r2, r3, r4⟩ := labelLoop_eq rows s.tpOuter (by rw [s1, List.length_map]) (unique (rows.map (fun r => r.row.pl)))
    (List.nodup_dedup _) ⟨st.run i, st.total i, st.tps i⟩ (by rw [h1]; simp) (by rw [h2]; simp)
  generalize (unique (rows.map (fun r => r.row.pl))).foldl (labelBody rows s.tpOuter) ⟨st.run i, st.total i, st.tps i⟩ = r at *
  dsimp only at r3 r4
  refine ⟨fun j hj => (s3 j hj).1, fun j hj => (s3 j hj).2, r1, r2, ?_⟩
  intro n l
  obtain ⟨p1, p2⟩ := points_fill (ious.getD i 0) n (rows.filter (fun r => decide (r.row.pl = l))) (st.run i l).1 (st.run i l).2
  by_cases hl : l ∈ unique (rows.map (fun r => r.row.pl))
  · obtain ⟨a1, a2, a3⟩ := r3 l hl
    rw [a2, a3, a1, h1, h2, hrep, s1, sel_map, sel_map, sel_map]
    exact Prod.ext p1 p2
  · obtain ⟨a1, a2, a3⟩ := r4 l hl
    have hnil : rows.filter (fun r => decide (r.row.pl = l)) = [] := by
      rw [List.filter_eq_nil_iff]
      intro x hx
      rw [decide_eq_true_eq]
      intro hxl
      apply hl
      unfold unique
      rw [List.mem_dedup]
      exact List.mem_map.2 ⟨x, hx, hxl⟩
    rw [a1, hnil]
    rfl

theorem iouBody_other (rows : List RRow) (ious scores : List Rat) (st : IouLoop) {i k : Nat} (h : k ≠ i) :
    (iouBody rows ious scores st i).tp k = st.tp k ∧ (iouBody rows ious scores st i).fp k = st.fp k ∧
    (iouBody rows ious scores st i).run k = st.run k ∧ (iouBody rows ious scores st i).total k = st.total k ∧
    (iouBody rows ious scores st i).tps k = st.tps k := by
  unfold iouBody
  exact ⟨put_other _ _ h, put_other _ _ h, put_other _ _ h, put_other _ _ h, put_other _ _ h⟩

theorem iouLoop_eq (rows : List RRow) (ious scores : List Rat) (st0 : IouLoop)
    (h1 : ∀ i, st0.total i = List.replicate rows.length 0) (h2 : ∀ i, st0.tps i = List.replicate rows.length 0) (k : Nat) :
    let st := (List.range k).foldl (iouBody rows ious scores) st0
    (∀ i, i < k → Slot rows (ious.getD i 0) scores (st0.run i) (st.tp i) (st.fp i) (st.run i) (st.total i) (st.tps i)) ∧
    (∀ i, k ≤ i → st.run i = st0.run i ∧ st.total i = st0.total i ∧ st.tps i = st0.tps i) := by
  induction k with
  | zero => exact ⟨fun i h => absurd h (by omega), fun i _ => ⟨rfl, rfl, rfl⟩⟩
  | succ k ih =>
    dsimp only at ih ⊢
    rw [List.range_succ, List.foldl_append, List.foldl_cons, List.foldl_nil]
    generalize (List.range k).foldl (iouBody rows ious scores) st0 = st at *
    obtain ⟨g1, g2⟩ := ih
    refine ⟨?_, ?_⟩
    · intro i hi
      by_cases hik : i = k
      · subst hik
        obtain ⟨a1, a2, a3⟩ := g2 i le_rfl
        have := iouBody_slot rows ious scores st i (by rw [a2, h1]) (by rw [a3, h2])
        rw [a1] at this
        exact this
      · obtain ⟨b1, b2, b3, b4, b5⟩ := iouBody_other rows ious scores st hik
        rw [b1, b2, b3, b4, b5]
        exact g1 i (by omega)
    · intro i hi
      obtain ⟨_, _, b3, b4, b5⟩ := iouBody_other rows ious scores st (show i ≠ k by omega)
      rw [b3, b4, b5]
      exact g2 i (by omega)

theorem curveLoop_eq (rows : List RRow) (n : Int → Nat) (order : List Rat → List Nat) (st : IouLoop) (c : CurveArr) (k : Nat) :
    let r := (List.range k).foldl (curveBody rows n order st) c
    (∀ i, i < k → r.prec i = (curveBody rows n order st c i).prec i ∧ r.score i = (curveBody rows n order st c i).score i) ∧
    (∀ i, k ≤ i → r.prec i = c.prec i ∧ r.score i = c.score i) := by
  induction k with
  | zero => exact ⟨fun i h => absurd h (by omega), fun i _ => ⟨rfl, rfl⟩⟩
  | succ k ih =>
    dsimp only at ih ⊢
    rw [List.range_succ, List.foldl_append, List.foldl_cons, List.foldl_nil]
    generalize (List.range k).foldl (curveBody rows n order st) c = r at *
    obtain ⟨g1, g2⟩ := ih
    refine ⟨?_, ?_⟩
    · intro i hi
      by_cases hik : i = k
      · subst hik
        obtain ⟨a1, a2⟩ := g2 i le_rfl
        unfold curveBody
        dsimp only
        rw [put_same, put_same, put_same, put_same, a1, a2]
        exact ⟨rfl, rfl⟩
      · have : (curveBody rows n order st r k).prec i = r.prec i ∧ (curveBody rows n order st r k).score i = r.score i := by
          unfold curveBody
          exact ⟨put_other _ _ hik, put_other _ _ hik⟩
        rw [this.1, this.2]
        exact g1 i (by omega)
    · intro i hi
      have : (curveBody rows n order st r k).prec i = r.prec i ∧ (curveBody rows n order st r k).score i = r.score i := by
        unfold curveBody
        exact ⟨put_other _ _ (by omega), put_other _ _ (by omega)⟩
      rw [this.1, this.2]
      exact g2 i (by omega)

/-- The curves after a table are those of `curveStep`. -/
theorem curveBody_eq {rows : List RRow} {t : Rat} {scores : List Rat} {run0 : Int → Nat × Nat} {st : IouLoop} {i : Nat}
    (h : Slot rows t scores run0 (st.tp i) (st.fp i) (st.run i) (st.total i) (st.tps i)) {order : List Rat → List Nat}
    (ho : IsArgsort order) (n : Int → Nat) (c : CurveArr) (l : Int) :
    ((curveBody rows n order st c i).prec i l = (curveStep t (n l) l ⟨(run0 l).1, (run0 l).2, c.prec i l, c.score i l⟩ rows).prec) ∧
    ((curveBody rows n order st c i).score i l = (curveStep t (n l) l ⟨(run0 l).1, (run0 l).2, c.prec i l, c.score i l⟩ rows).score) ∧
    st.run i l = ((curveStep t (n l) l ⟨(run0 l).1, (run0 l).2, c.prec i l, c.score i l⟩ rows).total,
      (curveStep t (n l) l ⟨(run0 l).1, (run0 l).2, c.prec i l, c.score i l⟩ rows).tp) := by
  unfold curveStep
  dsimp only
  rw [h.points (n l) l]
  dsimp only
  refine ⟨?_, ?_, rfl⟩
  · funext b
    unfold curveBody updatePrec
    dsimp only
    rw [put_same, maxFirst_prec ho _ _ (by rw [rowKeys_length _ _ _ h.len2]; unfold rowPrecision; simp [h.len1, h.len2]),
      filter_prec rows n (st.tps i) (st.total i) h.len2 h.len1]
  · funext b
    unfold curveBody updateScore maxFirst
    dsimp only
    rw [put_same, find_score rows n (st.tps i) (st.total i) h.len2 h.len1]
    cases (List.zipWith (pointOf (n l)) (rows.filter (fun r => decide (r.row.pl = l)))
      ((sel l rows (st.tps i)).zip (sel l rows (st.total i)))).find? (fun p => decide (p.bin = b)) <;> rfl

end Verif.Detection
