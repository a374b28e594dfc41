import Verif.Classification.Loader
import Mathlib.Data.List.Nodup
import Mathlib.Data.List.Basic

/-! # Lemmas about the classification loader -/

namespace Verif.Classification

/-- Labels: distinct, and position = id. -/
theorem addLabel_spec (ls : List String) (v : String) (hnd : ls.Nodup) :
    let r := addLabel ls v
    r.1.Nodup ∧ ls <+: r.1 ∧ v ∈ r.1 ∧ r.2 = r.1.idxOf v ∧ (∀ x ∈ r.1, x ∈ ls ∨ x = v) := by
  unfold addLabel
  cases h : ls.idxOf? v with
  | some i =>
    have hm : v ∈ ls := by
      by_contra hc
      rw [List.idxOf?_eq_none_iff.2 hc] at h
      exact absurd h (by simp)
    have : ls.idxOf v = i := by
      rw [List.idxOf_eq_getD_idxOf?, h]; rfl
    exact ⟨hnd, List.prefix_rfl, hm, this.symm, fun x hx => Or.inl hx⟩
  | none =>
    have hm : v ∉ ls := List.idxOf?_eq_none_iff.1 h
    refine ⟨?_, List.prefix_append _ _, by simp, ?_, by simp⟩
    · rw [List.nodup_append]
      exact ⟨hnd, by simp, by intro a ha b hb; simp at hb; subst hb; intro e; exact hm (e ▸ ha)⟩
    · dsimp only
      rw [List.idxOf_append_of_notMem hm]; simp

theorem idxOf_prefix {a b : List String} (h : a <+: b) {v : String} (hv : v ∈ a) :
    b.idxOf v = a.idxOf v := by
  obtain ⟨c, rfl⟩ := h
  exact List.idxOf_append_of_mem hv

/-- The rows of datum number `k` under the label table `ls`. -/
def rowsOf (ls : List String) (k : Nat) (c : Classif) : List Row :=
  (c.preds.zip c.scores).zipIdx.map (fun x =>
    { uid := c.uid, info := c.info, datum := k, gtLabel := c.gt, gt := ls.idxOf c.gt,
      pdLabel := x.1.1, pd := ls.idxOf x.1.1, score := x.1.2, winner := argmax c.scores == x.2,
      isMatch := decide (c.gt = x.1.1) })

theorem predRows_spec (c : Classif) (k win : Nat) (l : List (String × Rat)) :
    ∀ (i : Nat) (ls : List String), ls.Nodup → c.gt ∈ ls →
      let r := predRows c k (ls.idxOf c.gt) win l i ls
      r.1.Nodup ∧ ls <+: r.1 ∧ (∀ x ∈ l, x.1 ∈ r.1) ∧ (∀ x ∈ r.1, x ∈ ls ∨ ∃ s, (x, s) ∈ l) ∧
      ∀ L, r.1 <+: L → L.Nodup → r.2 = (l.zipIdx i).map (fun x =>
        { uid := c.uid, info := c.info, datum := k, gtLabel := c.gt, gt := L.idxOf c.gt,
          pdLabel := x.1.1, pd := L.idxOf x.1.1, score := x.1.2, winner := win == x.2,
          isMatch := decide (c.gt = x.1.1) }) := by
  induction l with
  | nil =>
    intro i ls hnd hg
    exact ⟨hnd, List.prefix_rfl, by simp, fun x hx => Or.inl hx, by simp [predRows]⟩
  | cons q rest ih =>
    intro i ls hnd hg
    obtain ⟨p, s⟩ := q
    obtain ⟨a1, a2, a3, a4, a5⟩ := addLabel_spec ls p hnd
    have hg' : c.gt ∈ (addLabel ls p).1 := a2.subset hg
    have hidx : (addLabel ls p).1.idxOf c.gt = ls.idxOf c.gt := idxOf_prefix a2 hg
    have := ih (i + 1) (addLabel ls p).1 a1 hg'
    rw [hidx] at this
    obtain ⟨b1, b2, b3, b4, b5⟩ := this
    simp only [predRows]
    refine ⟨b1, a2.trans b2, ?_, ?_, ?_⟩
    · intro x hx
      rcases List.mem_cons.1 hx with rfl | hx
      · exact b2.subset a3
      · exact b3 x hx
    · intro x hx
      rcases b4 x hx with h | ⟨s', h⟩
      · rcases a5 x h with h | rfl
        · exact Or.inl h
        · exact Or.inr ⟨s, by simp⟩
      · exact Or.inr ⟨s', by simp [h]⟩
    · intro L hL hLn
      rw [List.zipIdx_cons, List.map_cons, b5 L hL hLn]
      have e1 : L.idxOf c.gt = ls.idxOf c.gt := idxOf_prefix ((a2.trans b2).trans hL) hg
      have e2 : L.idxOf p = (addLabel ls p).2 := by rw [a4]; exact idxOf_prefix (b2.trans hL) a3
      have e3 : ((ls.idxOf c.gt == (addLabel ls p).2) && decide (0 ≤ (addLabel ls p).2))
          = decide (c.gt = p) := by
        rw [← e1, ← e2]
        have hgl : c.gt ∈ L := ((a2.trans b2).trans hL).subset hg
        by_cases h : c.gt = p
        · simp [h]
        · have : L.idxOf c.gt ≠ L.idxOf p := fun e => h ((List.idxOf_inj hgl).1 e)
          simp [h, this]
      congr 1
      simp only [e1, e2, Row.mk.injEq, true_and, and_true]
      rw [e3]

/-- Loader invariant with respect to the classifications accepted so far. -/
structure LInv (s : Loader) (cs : List Classif) : Prop where
  nodup : s.labels.Nodup
  count : s.datumCount = cs.length
  used : ∀ c ∈ cs, c.gt ∈ s.labels ∧ ∀ x ∈ c.preds.zip c.scores, x.1 ∈ s.labels
  onlyUsed : ∀ x ∈ s.labels, ∃ c ∈ cs, x = c.gt ∨ x ∈ c.preds
  rows : ∀ L, s.labels <+: L → L.Nodup →
    s.rows = cs.zipIdx.map (fun x => rowsOf L x.2 x.1)

theorem linv_init : LInv Loader.init [] :=
  ⟨by simp [Loader.init], rfl, by simp, by simp [Loader.init], by simp [Loader.init]⟩

theorem linv_addOne {s s' : Loader} {cs : List Classif} (i : LInv s cs) {c : Classif}
    (h : s.addOne c = some s') : LInv s' (cs ++ [c]) := by
  unfold Loader.addOne at h
  split at h
  · exact absurd h (by simp)
  · obtain ⟨a1, a2, a3, a4, a5⟩ := addLabel_spec s.labels c.gt i.nodup
    obtain ⟨b1, b2, b3, b4, b5⟩ := predRows_spec c s.datumCount (argmax c.scores)
      (c.preds.zip c.scores) 0 (addLabel s.labels c.gt).1 a1 a3
    simp only [Option.some.injEq] at h
    rw [← a4] at b1 b2 b3 b4 b5
    subst h
    refine ⟨b1, by simp [i.count], ?_, ?_, ?_⟩
    · intro d hd
      rcases List.mem_append.1 hd with hd | hd
      · obtain ⟨u1, u2⟩ := i.used d hd
        exact ⟨(a2.trans b2).subset u1, fun x hx => (a2.trans b2).subset (u2 x hx)⟩
      · simp at hd; subst hd
        exact ⟨b2.subset a3, b3⟩
    · intro x hx
      rcases b4 x hx with h | ⟨sc, h⟩
      · rcases a5 x h with h | rfl
        · obtain ⟨d, hd, h⟩ := i.onlyUsed x h
          exact ⟨d, by simp [hd], h⟩
        · exact ⟨c, by simp, Or.inl rfl⟩
      · exact ⟨c, by simp, Or.inr (List.of_mem_zip h).1⟩
    · intro L hL hLn
      dsimp only
      rw [i.rows L ((a2.trans b2).trans hL) hLn, b5 L hL hLn, List.zipIdx_append, List.map_append]
      simp [rowsOf, i.count]

/-- The classifications actually added by one call. -/
def accepted (cs : List Classif) : List Classif := cs.takeWhile (fun c => c.preds.length != 0)

theorem linv_addData (cs : List Classif) : ∀ {s : Loader} {done : List Classif}, LInv s done →
    LInv (s.addData cs).1 (done ++ accepted cs) := by
  induction cs with
  | nil => intro s done i; simpa [Loader.addData, accepted] using i
  | cons c cs ih =>
    intro s done i
    unfold Loader.addData
    cases h : s.addOne c with
    | none =>
      have : c.preds.length = 0 := by
        unfold Loader.addOne at h
        split at h
        · assumption
        · exact absurd h (by simp)
      have ha : accepted (c :: cs) = [] := by simp [accepted, List.takeWhile_cons, this]
      simpa [ha] using i
    | some s' =>
      have : c.preds.length ≠ 0 := by
        intro hc
        simp [Loader.addOne, hc] at h
      have ha : accepted (c :: cs) = c :: accepted cs := by
        have h' : (c.preds.length != 0) = true := by simpa using this
        simp only [accepted, List.takeWhile_cons, h', if_true]
      have := ih (linv_addOne i h)
      rw [ha]
      simpa using this

theorem linv_addAll (calls : List (List Classif)) : ∀ {s : Loader} {done : List Classif}, LInv s done →
    LInv (s.addAll calls) (done ++ calls.flatMap accepted) := by
  induction calls with
  | nil => intro s done i; simpa [Loader.addAll] using i
  | cons c cs ih =>
    intro s done i
    have := ih (linv_addData c i)
    simpa [Loader.addAll, List.append_assoc] using this

/-- Every loader reached by any history of `add_data` calls. -/
theorem linv_reach (calls : List (List Classif)) :
    LInv (Loader.init.addAll calls) (calls.flatMap accepted) := by
  simpa using linv_addAll calls linv_init

theorem argmaxLoop_spec (l : List Rat) : ∀ (pre : List Rat) (bi : Nat) (best : Rat),
    pre[bi]? = some best → (∀ y ∈ pre, y ≤ best) → (∀ j, j < bi → ∀ y, pre[j]? = some y → y < best) →
    let m := argmaxLoop l bi best pre.length
    ∃ v, (pre ++ l)[m]? = some v ∧ (∀ y ∈ pre ++ l, y ≤ v) ∧
      (∀ j, j < m → ∀ y, (pre ++ l)[j]? = some y → y < v) := by
  induction l with
  | nil => intro pre bi best h1 h2 h3; exact ⟨best, by simpa [argmaxLoop] using h1, by simpa using h2,
      by simpa [argmaxLoop] using h3⟩
  | cons x xs ih =>
    intro pre bi best h1 h2 h3
    have hsplit : pre ++ x :: xs = (pre ++ [x]) ++ xs := by simp
    have hlen : (pre ++ [x]).length = pre.length + 1 := by simp
    have hbi : bi < pre.length := by
      by_contra hc
      rw [List.getElem?_eq_none (by omega)] at h1
      exact absurd h1 (by simp)
    by_cases hx : best < x
    · have := ih (pre ++ [x]) pre.length x (by simp)
        (by intro y hy; rcases List.mem_append.1 hy with hy | hy
            · exact le_of_lt (lt_of_le_of_lt (h2 y hy) hx)
            · simp at hy; exact le_of_eq hy)
        (by intro j hj y hy
            rw [List.getElem?_append_left hj] at hy
            exact lt_of_le_of_lt (h2 y (List.mem_of_getElem? hy)) hx)
      simp only [argmaxLoop, hx, if_true]
      rw [hsplit, ← hlen]; exact this
    · have := ih (pre ++ [x]) bi best (by rw [List.getElem?_append_left hbi]; exact h1)
        (by intro y hy; rcases List.mem_append.1 hy with hy | hy
            · exact h2 y hy
            · simp at hy; subst hy; exact not_lt.1 hx)
        (by intro j hj y hy
            rw [List.getElem?_append_left (by omega)] at hy
            exact h3 j hj y hy)
      simp only [argmaxLoop, hx, if_false]
      rw [hsplit, ← hlen]; exact this

/-- `argmax` is the first position of the maximum. -/
theorem argmax_spec (l : List Rat) (h : l ≠ []) :
    ∃ v, l[argmax l]? = some v ∧ (∀ y ∈ l, y ≤ v) ∧
      (∀ j, j < argmax l → ∀ y, l[j]? = some y → y < v) := by
  cases l with
  | nil => exact absurd rfl h
  | cons x xs =>
    have := argmaxLoop_spec xs [x] 0 x (by simp) (by simp) (by simp)
    simpa [argmax] using this

end Verif.Classification
