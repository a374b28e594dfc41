import Verif.Classification.ReportExamples
import Verif.Classification.ExamplesProps
import Verif.Classification.ReportProps

/-! # C64: the metric lists with examples -/

namespace Verif.Classification

theorem exStep_ok {n : Nat} {f : List Row} {uid : Int → String} (hin : InRange f n)
    (hu : ∀ r ∈ f, uidOf f r.datum = some (uid r.datum)) (hm : Bool) : ∀ (acc : List ExCM) (Ts : List (List Rat)), acc.length = Ts.length →
      (∀ a ∈ acc, ∃ C U, a = exTab n C U) →
      ∃ acc', (acc.zip (Ts.map (fun T => masksOf f (passMask T hm)))).mapM (fun x => unpackExCM n f x.1 x.2) = some acc' ∧
        acc'.length = Ts.length ∧ ∀ a ∈ acc', ∃ C U, a = exTab n C U := by
  intro acc
  induction acc with
  | nil => intro Ts h _; exact ⟨[], by simp, by simpa using h, by simp⟩
  | cons a acc ih =>
    intro Ts h ha
    cases Ts with
    | nil => simp at h
    | cons T Ts =>
      obtain ⟨C, U, rfl⟩ := ha a (by simp)
      obtain ⟨acc', h1, h2, h3⟩ := ih Ts (by simpa using h) (fun b hb => ha b (by simp [hb]))
      refine ⟨exTab n (fun g p => C g p ++ (cellKeys f (passMask T hm) g p).map (fun x => (uid x.1, scoreFor f (passMask T hm) x)))
          (fun g => U g ++ (missKeys f (masksOf f (passMask T hm)).unmatched g).map (fun x => uid x.1)) :: acc', ?_, ?_, ?_⟩
      · rw [List.map_cons, List.zip_cons_cons, List.mapM_cons, unpack_eq hin hu, h1]
        rfl
      · simpa using h2
      · intro b hb
        rcases List.mem_cons.1 hb with rfl | hb
        · exact ⟨_, _, rfl⟩
        · exact h3 b hb

theorem evalExCM_ok {n : Nat} {uid : Int → String} {ts : List Rat} (hts : ts ≠ []) (hm : Bool) (frags : List (List Row))
    (hin : ∀ f ∈ frags, InRange f n) (hu : ∀ f ∈ frags, ∀ r ∈ f, uidOf f r.datum = some (uid r.datum)) :
    ∃ R, evalExCM frags ts hm n = some R ∧ R.length = ts.length := by
  unfold evalExCM
  rw [if_neg (by simpa using hts)]
  have key : ∀ (fs : List (List Row)) (acc : List ExCM), (∀ f ∈ fs, InRange f n) → (∀ f ∈ fs, ∀ r ∈ f, uidOf f r.datum = some (uid r.datum)) →
      acc.length = ts.length → (∀ a ∈ acc, ∃ C U, a = exTab n C U) →
      ∃ R, fs.foldlM (fun acc f => if f.isEmpty then some acc
        else (acc.zip (pairMasks f ts hm)).mapM (fun x => unpackExCM n f x.1 x.2)) acc = some R ∧ R.length = ts.length := by
    intro fs
    induction fs with
    | nil => intro acc _ _ h _; exact ⟨acc, rfl, h⟩
    | cons f fs ih =>
      intro acc h1 h2 h3 h4
      rw [List.foldlM_cons]
      split
      · exact ih acc (fun g hg => h1 g (by simp [hg])) (fun g hg => h2 g (by simp [hg])) h3 h4
      · obtain ⟨acc', e1, e2, e3⟩ := exStep_ok (h1 f (by simp)) (h2 f (by simp)) hm acc (prefixes ts) (by simpa [prefixes] using h3) h4
        rw [pairMasks_eq, e1]
        simp only [Option.bind_eq_bind, Option.bind_some]
        exact ih acc' (fun g hg => h1 g (by simp [hg])) (fun g hg => h2 g (by simp [hg])) (by simpa [prefixes] using e2) e3
  refine key frags _ hin hu (by simp) ?_
  intro a ha
  obtain ⟨t, _, rfl⟩ := List.mem_map.1 ha
  exact ⟨_, _, exTab_empty n⟩

theorem lookup_zip {β : Type} {L : List String} (hnd : L.Nodup) {l : List β} {i : Nat} {v : String} {b : β} (hv : L[i]? = some v)
    (hb : l[i]? = some b) : (L.zip l).lookup v = some b := by
  induction L generalizing l i with
  | nil => simp at hv
  | cons a L ih =>
    cases l with
    | nil => simp at hb
    | cons c l =>
      rw [List.nodup_cons] at hnd
      rw [List.zip_cons_cons, List.lookup_cons]
      cases i with
      | zero =>
        simp only [List.getElem?_cons_zero, Option.some.injEq] at hv hb
        subst hv hb
        simp
      | succ i =>
        simp only [List.getElem?_cons_succ] at hv hb
        have : (v == a) = false := by
          rw [beq_eq_false_iff_ne]
          rintro rfl
          exact hnd.1 (List.mem_of_getElem? hv)
        rw [this]
        exact ih hnd.2 hv hb

open Classical in
/-- **C64 (confusion matrices with examples).** For every history, every cut into tables and every non-empty list of thresholds the call
succeeds with one metric per threshold, in the given order and with the given threshold as parameter. By the names of the labels (each
label is a key), the `k`-th metric holds the numbers of the largest of the first `k + 1` thresholds (C18) and the examples for them: the
uids of the datums counted there, each with the score of a prediction that was shown. -/
theorem C64_matrix_with_examples (calls : List (List Classif)) (hv : ∀ c ∈ calls.flatten, c.valid = true) {frags : List (List Row)}
    (hf : FragmentsOf frags (Loader.init.addAll calls).rows.flatten) {ts : List Rat} (hts : ts ≠ []) (hm : Bool) :
    let L := (Loader.init.addAll calls).labels
    let cs := history calls
    ∃ R, reportExCM frags L ts hm = some R ∧ R.length = ts.length ∧
      ∀ (k : Nat) (t m : Rat), ts[k]? = some t → m ∈ ts.take (k + 1) → (∀ x ∈ ts.take (k + 1), x ≤ m) →
        ∃ M, R[k]? = some M ∧ M.type = "ConfusionMatrixWithExamples" ∧ M.threshold = t ∧ M.hardmax = hm ∧
          (∀ g ∈ L, ∀ p ∈ L, ∃ row cell, M.cells.lookup g = some row ∧ row.lookup p = some cell ∧ cell.count = specCell cs m hm g p ∧
            (cell.examples.map Prod.fst).Perm
              ((cs.filter (fun c => decide (c.gt = g ∧ ∃ i, c.preds[i]? = some p ∧ Shown m hm c i))).map Classif.uid) ∧
            ∀ x ∈ cell.examples, ∃ c ∈ cs, c.uid = x.1 ∧ c.gt = g ∧ ∃ i, c.preds[i]? = some p ∧ c.scores[i]? = some x.2 ∧ Shown m hm c i) ∧
          ∀ g ∈ L, ∃ cell, M.unmatched.lookup g = some cell ∧ cell.count = specMissed cs m hm g ∧
            cell.examples.Perm ((cs.filter (fun c => decide (c.gt = g ∧ ∀ i, ¬ Shown m hm c i))).map Classif.uid) := by
  intro L cs
  have hnd : L.Nodup := (linv_reach calls).nodup
  have hin := inRange_reach calls
  have hf' := hf
  rw [rows_reach calls] at hf' hin
  have hpart := part_of hf'
  obtain ⟨Ms, e1, e2⟩ := evalExCM_ok (n := L.length) (uid := uidAt cs) hts hm frags (fun f hfm r hr => hin r ((hpart f hfm).sub r hr))
    (fun f hfm r hr => uidOf_part (hpart f hfm) hr)
  refine ⟨_, by unfold reportExCM; rw [e1]; rfl, by simp [e2], ?_⟩
  intro k t m hk m1 m2
  have hkl : k < ts.length := (List.getElem?_eq_some_iff.1 hk).1
  obtain ⟨M, g1, g2⟩ := C18_excm_running_max frags ts hm L.length k Ms e1 m hkl m1 m2
  obtain ⟨M', g3, g4, g5⟩ := C19_examples calls hv frags hf m hm
  rw [g2] at g3
  simp only [Option.some.injEq, List.cons.injEq, and_true] at g3
  subst g3
  refine ⟨M.named L t hm, ?_, rfl, rfl, rfl, ?_, ?_⟩
  · rw [List.getElem?_map, List.getElem?_zip_eq_some (z := (M, t)) |>.2 ⟨g1, hk⟩]
    rfl
  · intro g hg p hp
    obtain ⟨row, cell, r1, r2, r3⟩ := g4 (L.idxOf g) (L.idxOf p) g p (List.getElem?_idxOf hg) (List.getElem?_idxOf hp)
    refine ⟨L.zip row, cell, ?_, lookup_zip hnd (List.getElem?_idxOf hp) r2, r3⟩
    exact lookup_zip hnd (List.getElem?_idxOf hg) (by rw [List.getElem?_map, r1]; rfl)
  · intro g hg
    obtain ⟨cell, r1, r2⟩ := g5 (L.idxOf g) g (List.getElem?_idxOf hg)
    exact ⟨cell, lookup_zip hnd (List.getElem?_idxOf hg) r1, r2⟩

/-- **C64 (examples).** For every history with at most 100000 labels, every cut into tables and every non-empty list of thresholds the call
succeeds; datum by datum (each datum once), its list has one metric per threshold, in the given order and with the given threshold as
parameter, and with the entry of the datum at the largest of the thresholds up to there (C18, C52). -/
theorem C64_examples (calls : List (List Classif)) (hv : ∀ c ∈ calls.flatten, c.valid = true)
    (hL : (Loader.init.addAll calls).labels.length ≤ 100000) {frags : List (List Row)}
    (hf : FragmentsOf frags (Loader.init.addAll calls).rows.flatten) {ts : List Rat} (hts : ts ≠ []) (hm : Bool) :
    ∃ (blocks : List (List ExamplesMetric)) (ds : List Nat),
      reportExamples frags (Loader.init.addAll calls).labels ts hm = some blocks.flatten ∧
      ds.Perm (List.range (history calls).length) ∧ blocks.length = ds.length ∧
      ∀ (j k : Nat), ds[j]? = some k → ∃ c b, (history calls)[k]? = some c ∧ blocks[j]? = some b ∧ b.length = ts.length ∧
        ∀ (i : Nat) (t m : Rat), ts[i]? = some t → m ∈ ts.take (i + 1) → (∀ x ∈ ts.take (i + 1), x ≤ m) →
          ∃ e, b[i]? = some ⟨"Examples", e, t, hm⟩ ∧ Entry m hm c e := by
  obtain ⟨R, ds, h1, h2, h3, h4⟩ := C52_examples calls hv hL frags hf hts hm
  refine ⟨R.map (fun es => (es.zip ts).map (fun x => ⟨"Examples", x.1, x.2, hm⟩)), ds, ?_, h2, by simpa using h3, ?_⟩
  · unfold reportExamples
    rw [h1, Option.map_some, List.flatMap_def]
  · intro j k hj
    obtain ⟨c, es, q1, q2, q3, q4⟩ := h4 j k hj
    refine ⟨c, _, q1, by rw [List.getElem?_map, q2]; rfl, by simp [q3], ?_⟩
    intro i t m hi m1 m2
    obtain ⟨e, r1, r2⟩ := q4 i m (List.getElem?_eq_some_iff.1 hi).1 m1 m2
    refine ⟨e, ?_, r2⟩
    rw [List.getElem?_map, List.getElem?_zip_eq_some (z := (e, t)) |>.2 ⟨r1, hi⟩]
    rfl

/-- The sample in one table and with two thresholds in descending order: the second metric repeats the numbers of the first. -/
example : FragmentsOf [(Loader.init.addAll sample).rows.flatten] (Loader.init.addAll sample).rows.flatten ∧ (∀ c ∈ sample.flatten, c.valid = true) ∧
    (reportExamples [(Loader.init.addAll sample).rows.flatten] ["cat", "dog", "bird"] [1/2, 1/10] false).map
      (fun R => R.map (fun m => (m.value, m.threshold)))
      = some [(⟨"d0", ["cat"], [], ["dog"]⟩, 1/2), (⟨"d0", ["cat"], [], ["dog"]⟩, 1/10), (⟨"d1", [], ["dog"], ["cat"]⟩, 1/2),
        (⟨"d1", [], ["dog"], ["cat"]⟩, 1/10), (⟨"d2", [], ["dog"], ["bird"]⟩, 1/2), (⟨"d2", [], ["dog"], ["bird"]⟩, 1/10)] := by
  refine ⟨⟨by rw [List.flatten_singleton], List.pairwise_singleton _ _⟩, by decide +kernel, by decide +kernel⟩

end Verif.Classification
