import Verif.Detection.ReorderProps
import Verif.Detection.DatumReport

/-!
# Reports of two caches with the same rows under other ids

Lemmas for C99: if the datums keep their order, equal scores do no harm (compare `NoTies` in C75), and the whole report agrees.
-/

namespace Verif.Detection

open Verif.Cache (sortBy SortedBy StableOf sorted_stable_unique)

/-- The sequence of ranked rows of a label, when the datums keep their order. -/
theorem Reordered.sequence_same {f : Row → Row} {pieces pieces' : List (List Row)} (h : Reordered f pieces pieces')
    (hsame : pieces' = pieces.map (List.map f))
    (hok : RowsOk pieces.flatten) (hok' : RowsOk pieces'.flatten) {t1 t2 : List (List Row)}
    (h1 : Divides pieces.flatten t1) (h2 : Divides pieces'.flatten t2) {out1 out2 : List RRow} (r1 : RankedOf t1 out1)
    (r2 : RankedOf t2 out2) {l l' : Int} (hl : ∀ r ∈ pieces.flatten, (f r).pl = l' ↔ r.pl = l) :
    (out2.map RRow.row).filter (fun r => decide (r.pl = l')) = ((out1.map RRow.row).filter (fun r => decide (r.pl = l))).map f := by
  rw [ranked_canonical h1 hok r1, ranked_canonical h2 hok' r2, lexsort_filter, lexsort_filter]
  have hd : ∀ (k : List Rat) (l : List Row), l.filter (fun x => @decide _ (LinearOrder.toDecidableEq (rankKey x) k))
      = l.filter (fun x => decide (rankKey x = k)) := by
    intro k l
    apply List.filter_congr
    intro x _
    rw [Bool.eq_iff_iff]
    simp only [decide_eq_true_eq]
  apply sorted_stable_unique (key := rankKey)
  · exact lexsort_sorted _ _
  · have := lexsort_sorted rankKey ((Verif.Detection.chosen pieces.flatten).filter (fun r => decide (r.pl = l)))
    unfold SortedBy at this ⊢
    rw [List.pairwise_map]
    simp only [h.ren.key]
    exact this
  · intro k
    refine (hd k _).trans (Eq.trans ?_ (hd k _).symm)
    rw [lexsort_stable, List.filter_map (f := f)]
    have e0 : ((fun x => decide (rankKey x = k)) ∘ f) = fun x => decide (rankKey x = k) := by
      funext x
      simp only [Function.comp_apply, h.ren.key]
    rw [e0, lexsort_stable, chosen_flatten hok.pds h.asc, chosen_flatten hok'.pds h.asc']
    rw [List.filter_flatten, List.filter_flatten, List.filter_flatten, List.filter_flatten, List.map_flatten, List.map_map, List.map_map,
      List.map_map, List.map_map, List.map_map]
    congr 1
    rw [hsame, List.map_map]
    apply List.map_congr_left
    intro p hp
    have hsub : ∀ r ∈ p, r ∈ pieces.flatten := fun r hr => List.mem_flatten.2 ⟨p, hp, hr⟩
    simp only [Function.comp_apply]
    rw [(h.ren.subset hsub).chosen_label (h.one p hp) (fun r hr => hl r (hsub r hr)), List.filter_map, e0]

/-- Precision-recall curve, when the datums keep their order. -/
theorem Reordered.curve_same {f : Row → Row} {pieces pieces' : List (List Row)} (h : Reordered f pieces pieces')
    (hsame : pieces' = pieces.map (List.map f))
    (hok : RowsOk pieces.flatten) (hok' : RowsOk pieces'.flatten) {t1 t2 : List (List Row)}
    (h1 : Divides pieces.flatten t1) (h2 : Divides pieces'.flatten t2) {out1 out2 : List RRow} (r1 : RankedOf t1 out1)
    (r2 : RankedOf t2 out2) {chunks1 chunks2 : List (List RRow)} (c1 : chunks1.flatten = out1) (c2 : chunks2.flatten = out2)
    {l l' : Int} (hl : ∀ r ∈ pieces.flatten, (f r).pl = l' ↔ r.pl = l) (t : Rat) (n : Nat) :
    (curveOf t n l' chunks2).prec = (curveOf t n l chunks1).prec ∧ (curveOf t n l' chunks2).score = (curveOf t n l chunks1).score := by
  have hseq := h.sequence_same hsame hok hok' h1 h2 r1 r2 hl
  have f1 := label_first l (outer_first (divides_ok h1 hok) r1 t)
  have f2 := label_first l' (outer_first (divides_ok h2 hok') r2 t)
  have hfm : ∀ (out : List RRow) (l : Int), (out.map RRow.row).filter (fun r => decide (r.pl = l))
      = (out.filter (fun r => decide (r.row.pl = l))).map RRow.row := by
    intro out l
    rw [List.filter_map]
    rfl
  rw [hfm, hfm] at hseq
  have hpar := parallel_of_rows (t := t) h.ren (fun r hr => mem_out h1 hok r1 (List.mem_filter.1 hr).1) f1 f2 hseq
  have hpt := parallel_points hpar n 0 0
  constructor
  · rw [curve_prec, curve_prec, c1, c2, hpt]
  · unfold curveOf
    rw [curve_score t n l' chunks2 _ (by rw [c2]; exact ranked_scores r2), curve_score t n l chunks1 _ (by rw [c1]; exact ranked_scores r1), c1, c2]
    show topScore _ (points t n 0 0 _).1 = topScore _ (points t n 0 0 _).1
    rw [hpt]

/-- Reports over corresponding labels hold the same metrics. `g` maps the labels of the first to those of the second. -/
theorem expectedReport_renamed {ta tb : List (List Row)} {ca cb : List (List RRow)} {la lb : List (Nat × String)} {ious scores : List Rat}
    (g : Nat × String → Nat × String) (hp : lb.Perm (la.map g)) (hn : ∀ x ∈ la, (g x).2 = x.2)
    (hg : ∀ x ∈ la, gtCount tb ((g x).1 : Int) = gtCount ta (x.1 : Int))
    (htp : ∀ t s, ∀ x ∈ la, tpTotal t s cb ((g x).1 : Int) = tpTotal t s ca (x.1 : Int))
    (hfp : ∀ t s, ∀ x ∈ la, fpTotal t s cb ((g x).1 : Int) = fpTotal t s ca (x.1 : Int))
    (hpr : ∀ t, ∀ x ∈ la, (curveOf t (gtCount tb ((g x).1 : Int)) ((g x).1 : Int) cb).prec = (curveOf t (gtCount ta (x.1 : Int)) (x.1 : Int) ca).prec)
    (hsc : ∀ t, ∀ x ∈ la, (curveOf t (gtCount tb ((g x).1 : Int)) ((g x).1 : Int) cb).score = (curveOf t (gtCount ta (x.1 : Int)) (x.1 : Int) ca).score) :
    (expectedReport tb cb lb ious scores).all.Perm (expectedReport ta ca la ious scores).all := by
  have ea : ∀ t, ∀ x ∈ la, apAt tb cb t ((g x).1 : Int) = apAt ta ca t (x.1 : Int) := by
    intro t x hx
    unfold apAt
    rw [hpr t x hx]
  have er : ∀ t s, ∀ x ∈ la, recallAt tb cb t s ((g x).1 : Int) = recallAt ta ca t s (x.1 : Int) := by
    intro t s x hx
    unfold recallAt
    rw [htp t s x hx, hg x hx]
  have ep : ∀ t s, ∀ x ∈ la, precisionOf cb t s ((g x).1 : Int) = precisionOf ca t s (x.1 : Int) := by
    intro t s x hx
    unfold precisionOf
    rw [htp t s x hx, hfp t s x hx]
  have one : ∀ {β : Type} (F G : Nat × String → β), (∀ x ∈ la, F (g x) = G x) → (lb.map F).Perm (la.map G) := by
    intro β F G h
    refine (hp.map F).trans (List.Perm.of_eq ?_)
    rw [List.map_map]
    exact List.map_congr_left h
  have many : ∀ {β : Type} (F G : Nat × String → List β), (∀ x ∈ la, F (g x) = G x) → (lb.flatMap F).Perm (la.flatMap G) := by
    intro β F G h
    rw [List.flatMap_def, List.flatMap_def]
    have := perm_map_flatten (F := id) (one F G h)
    simpa using this
  have over : ∀ {α β : Type} (l : List α) (F G : α → Nat × String → β), (∀ t, ∀ x ∈ la, F t (g x) = G t x) →
      (l.flatMap (fun t => lb.map (F t))).Perm (l.flatMap (fun t => la.map (G t))) := by
    intro α β l F G h
    rw [List.flatMap_def, List.flatMap_def]
    exact perm_pieces (fun t _ => one _ _ (h t))
  have avg : ∀ F G : Int → Rat, (∀ x ∈ la, F ((g x).1 : Int) = G (x.1 : Int)) →
      mean ((lb.map (fun x => (x.1 : Int))).map F) = mean ((la.map (fun x => (x.1 : Int))).map G) := by
    intro F G h
    rw [List.map_map, List.map_map]
    exact mean_perm (one _ _ h)
  have avgAp : ∀ t, mean ((lb.map (fun x => (x.1 : Int))).map (apAt tb cb t)) = mean ((la.map (fun x => (x.1 : Int))).map (apAt ta ca t)) :=
    fun t => avg _ _ (ea t)
  have avgAr : ∀ s, mean ((lb.map (fun x => (x.1 : Int))).map (fun l => mean (ious.map (fun t => recallAt tb cb t s l))))
      = mean ((la.map (fun x => (x.1 : Int))).map (fun l => mean (ious.map (fun t => recallAt ta ca t s l)))) := by
    intro s
    refine avg _ _ (fun x hx => ?_)
    simp only [er _ _ x hx]
  unfold Report.all expectedReport
  dsimp only
  simp only [avgAp, avgAr]
  refine List.Perm.append (List.Perm.append (List.Perm.append (List.Perm.append (List.Perm.append (List.Perm.append (List.Perm.append
    (List.Perm.append (List.Perm.append (List.Perm.append (List.Perm.append (List.Perm.append ?_ (List.Perm.refl _)) ?_) (List.Perm.refl _)) ?_)
      (List.Perm.refl _)) ?_) (List.Perm.refl _)) ?_) ?_) ?_) ?_) ?_
  · refine over ious _ _ (fun t x hx => ?_)
    rw [ea t x hx, hn x hx]
  · refine one _ _ (fun x hx => ?_)
    simp only [ea _ x hx, hn x hx]
  · refine over scores _ _ (fun s x hx => ?_)
    simp only [er _ _ x hx, hn x hx]
  · refine one _ _ (fun x hx => ?_)
    simp only [er _ _ x hx, hn x hx]
  · refine over ious _ _ (fun t x hx => ?_)
    rw [hpr t x hx, hsc t x hx, hn x hx]
  · refine many _ _ (fun x hx => ?_)
    simp only [htp _ _ x hx, hfp _ _ x hx, hg x hx, hn x hx]
  · refine many _ _ (fun x hx => ?_)
    simp only [ep _ _ x hx, hn x hx]
  · refine many _ _ (fun x hx => ?_)
    simp only [er _ _ x hx, hn x hx]
  · refine many _ _ (fun x hx => ?_)
    simp only [ep _ _ x hx, er _ _ x hx, hn x hx]

end Verif.Detection
