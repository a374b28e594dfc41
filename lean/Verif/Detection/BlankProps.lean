import Verif.Detection.OnlyCurve
import Verif.Detection.OnlyMatrix
import Verif.Detection.OnlyReport

/-!
# C125: images without annotations (`object_detection/loader.py` 49-192)
-/

namespace Verif.Detection

open Verif.Cache (sortBy)

/-- An image with neither ground truths nor predictions. -/
def blank (x : Det × (Nat → Nat → Rat)) : Bool := x.1.gts.isEmpty && x.1.pds.isEmpty

/-- The dataset without these images. -/
def unblank (H : History) : History := H.filter (fun x => !blank x)

/-! ## The rows -/

/-- The row in another image. -/
def inImage (k : Int) (f : FRow) : FRow := { f with row := { f.row with datum := k } }

/-- The steps in another image. -/
def stepIn (k : Int) (s : Step) : Step := { s with out := fun g p => (s.out g p).map (inImage k) }

theorem exec_in (k : Int) (ss : List Step) (ls : List String) :
    exec (ss.map (stepIn k)) ls = ((exec ss ls).1, (exec ss ls).2.map (inImage k)) := by
  induction ss generalizing ls with
  | nil => rfl
  | cons s ss ih =>
    simp only [List.map_cons, exec, stepIn, ih, List.map_append]

theorem pdSteps_in (d : Det) (k k' : Int) (p0 : Nat) (x : Ann × Nat) : pdSteps d k p0 x = (pdSteps d k' p0 x).map (stepIn k) := by
  unfold pdSteps
  rw [List.map_map]
  rfl

theorem gtSteps_in (d : Det) (iou : Nat → Nat → Rat) (k k' : Int) (g0 p0 : Nat) (x : Ann × Nat) :
    gtSteps d iou k g0 p0 x = (gtSteps d iou k' g0 p0 x).map (stepIn k) := by
  unfold gtSteps
  rw [List.map_cons, List.map_flatMap]
  congr 1
  · unfold stepIn
    simp only [Step.mk.injEq, true_and]
    funext gl pl
    by_cases h : gtAlone d iou x.2 = true
    · rw [if_pos h, if_pos h]
      rfl
    · rw [if_neg h, if_neg h]
      rfl
  · congr 1
    funext y
    rw [List.map_append, pdSteps_in d k k']
    congr 1
    · split <;> rfl
    · split
      · rw [List.map_flatMap]
        congr 1
        funext gl
        rw [List.map_map]
        rfl
      · rfl

theorem detSteps_in (d : Det) (iou : Nat → Nat → Rat) (k k' : Int) (g0 p0 : Nat) :
    detSteps d iou k g0 p0 = (detSteps d iou k' g0 p0).map (stepIn k) := by
  unfold detSteps
  split
  · rw [List.map_flatMap]
    congr 1
    funext x
    exact gtSteps_in d iou k k' g0 p0 x
  · rw [List.map_flatMap]
    congr 1
    funext x
    exact pdSteps_in d k k' p0 x

theorem exec_image (d : Det) (iou : Nat → Nat → Rat) (k k' : Int) (g0 p0 : Nat) (ls : List String) :
    exec (detSteps d iou k g0 p0) ls = ((exec (detSteps d iou k' g0 p0) ls).1, (exec (detSteps d iou k' g0 p0) ls).2.map (inImage k)) := by
  rw [detSteps_in d iou k k', exec_in]

theorem exec_datum (d : Det) (iou : Nat → Nat → Rat) (k : Int) (g0 p0 : Nat) (ls : List String) :
    ∀ f ∈ (exec (detSteps d iou k g0 p0) ls).2, f.row.datum = k := by
  intro f hf
  rw [exec_image d iou k k] at hf
  obtain ⟨f', _, rfl⟩ := List.mem_map.1 hf
  rfl

theorem blank_run (δ : Nat → Nat) : ∀ (H : History) (s s' : Loader), s.labels = s'.labels → s.gts = s'.gts → s.pds = s'.pds →
    s'.datums ≤ s.datums →
    (∀ (i : Nat) (z : (Det × (Nat → Nat → Rat)) × Nat), ((H.zipIdx s.datums).filter (fun z => !blank z.1))[i]? = some z → δ (s'.datums + i) = z.2) →
    (s.addData H).labels = (s'.addData (unblank H)).labels ∧ (s.addData H).gts = (s'.addData (unblank H)).gts ∧
    (s.addData H).pds = (s'.addData (unblank H)).pds ∧ (s'.addData (unblank H)).datums ≤ (s.addData H).datums ∧
    ∃ X : List FRow, (s'.addData (unblank H)).rows.flatten = s'.rows.flatten ++ X ∧
      (s.addData H).rows.flatten = s.rows.flatten ++ X.map (fun f => inImage (δ f.row.datum.toNat : Nat) f) ∧
      ∀ f ∈ X, ∃ i < (unblank H).length, f.row.datum = ((s'.datums + i : Nat) : Int)
  | [], s, s', h1, h2, h3, h4, _ => ⟨h1, h2, h3, h4, [], by simp [Loader.addData, unblank], by simp [Loader.addData], by simp⟩
  | x :: H, s, s', h1, h2, h3, h4, hδ => by
    by_cases hb : blank x = true
    · have hu : unblank (x :: H) = unblank H := by unfold unblank; rw [List.filter_cons_of_neg (by simp [hb])]
      have hg : x.1.gts = [] ∧ x.1.pds = [] := by
        unfold blank at hb
        rw [Bool.and_eq_true, List.isEmpty_iff, List.isEmpty_iff] at hb
        exact hb
      have ha : s.addOne x = ⟨s.labels, s.datums + 1, s.gts, s.pds, s.rows ++ [[]]⟩ := by
        unfold Loader.addOne detSteps
        simp [hg.1, hg.2, exec]
      have := blank_run δ H (s.addOne x) s' (by rw [ha]; exact h1) (by rw [ha]; exact h2) (by rw [ha]; exact h3) (by rw [ha]; exact Nat.le_succ_of_le h4)
        (by
          intro i z hz
          apply hδ i z
          rw [List.zipIdx_cons, List.filter_cons_of_neg (by simp [hb])]
          rw [ha] at hz
          exact hz)
      rw [hu]
      obtain ⟨a1, a2, a3, a4, X, a5, a6, a7⟩ := this
      refine ⟨a1, a2, a3, a4, X, a5, ?_, a7⟩
      have e : (s.addOne x).rows.flatten = s.rows.flatten := by rw [ha]; simp
      rw [e] at a6
      exact a6
    · have hb' : blank x = false := by simpa using hb
      have hu : unblank (x :: H) = x :: unblank H := by unfold unblank; rw [List.filter_cons_of_pos (by simp [hb'])]
      have h0 : δ s'.datums = s.datums := by
        have := hδ 0 (x, s.datums) (by rw [List.zipIdx_cons, List.filter_cons_of_pos (by simp [hb'])]; rfl)
        exact this
      have hex := exec_image x.1 x.2 (s.datums : Int) (s'.datums : Int) s.gts s.pds s.labels
      have := blank_run δ H (s.addOne x) (s'.addOne x) (by unfold Loader.addOne; dsimp only; rw [hex, h1, h2, h3])
        (by unfold Loader.addOne; dsimp only; rw [h2]) (by unfold Loader.addOne; dsimp only; rw [h3])
        (by unfold Loader.addOne; dsimp only; omega)
        (by
          intro i z hz
          have := hδ (i + 1) z (by
            rw [List.zipIdx_cons, List.filter_cons_of_pos (by simp [hb']), List.getElem?_cons_succ]
            exact hz)
          unfold Loader.addOne
          dsimp only
          rw [show s'.datums + 1 + i = s'.datums + (i + 1) by omega]
          exact this)
      rw [hu]
      obtain ⟨a1, a2, a3, a4, X, a5, a6, a7⟩ := this
      refine ⟨a1, a2, a3, a4, (exec (detSteps x.1 x.2 (s'.datums : Int) s.gts s.pds) s.labels).2 ++ X, ?_, ?_, ?_⟩
      · have e : (s'.addOne x).rows.flatten = s'.rows.flatten ++ (exec (detSteps x.1 x.2 (s'.datums : Int) s.gts s.pds) s.labels).2 := by
          unfold Loader.addOne
          dsimp only
          rw [List.flatten_append, List.flatten_singleton, h1, h2, h3]
        rw [← List.append_assoc, ← e]
        exact a5
      · have e : (s.addOne x).rows.flatten = s.rows.flatten ++
            (exec (detSteps x.1 x.2 (s'.datums : Int) s.gts s.pds) s.labels).2.map (fun f => inImage (δ f.row.datum.toNat : Nat) f) := by
          unfold Loader.addOne
          dsimp only
          rw [List.flatten_append, List.flatten_singleton, hex]
          congr 1
          apply List.map_congr_left
          intro f hf
          rw [exec_datum _ _ _ _ _ _ f hf, Int.toNat_natCast, h0]
        rw [List.map_append, ← List.append_assoc, ← e]
        exact a6
      · intro f hf
        rcases List.mem_append.1 hf with hf | hf
        · exact ⟨0, by simp, by rw [exec_datum _ _ _ _ _ _ f hf]; rfl⟩
        · obtain ⟨i, hi, he⟩ := a7 f hf
          refine ⟨i + 1, by simp only [List.length_cons]; omega, ?_⟩
          rw [he]
          unfold Loader.addOne
          dsimp only
          push_cast
          ring

/-- The place that the `j`-th image with annotations had. -/
def place (H : History) (j : Nat) : Nat := ((H.zipIdx.filter (fun z => !blank z.1)).map Prod.snd).getD j 0

/-- The row in the image as it was numbered before. -/
def inPlace (H : History) (r : Row) : Row := { r with datum := (place H r.datum.toNat : Nat) }

theorem unblank_length (H : History) : (H.zipIdx.filter (fun z => !blank z.1)).length = (unblank H).length := by
  have h : H = H.zipIdx.map Prod.fst := (List.zipIdx_map_fst 0 H).symm
  unfold unblank
  conv_rhs => rw [h, List.filter_map, List.length_map]
  rfl

/-- The rows of the two datasets differ in the numbers of the images only; labels and counters are the same. -/
theorem blank_rows {calls calls' : List History} (h : calls'.flatten = unblank calls.flatten) :
    (Loader.init.addAll calls).labels = (Loader.init.addAll calls').labels ∧ (Loader.init.addAll calls).gts = (Loader.init.addAll calls').gts ∧
    (Loader.init.addAll calls).pds = (Loader.init.addAll calls').pds ∧ (Loader.init.addAll calls').datums ≤ (Loader.init.addAll calls).datums ∧
    loaderRows calls = (loaderRows calls').map (inPlace calls.flatten) ∧
    ∀ r ∈ loaderRows calls', ∃ i < (unblank calls.flatten).length, r.datum = (i : Int) := by
  have e : ∀ c : List History, Loader.init.addAll c = Loader.init.addData c.flatten := by
    intro c
    unfold Loader.addAll Loader.addData
    rw [List.foldl_flatten]
  unfold loaderRows
  rw [e calls, e calls', h]
  obtain ⟨a1, a2, a3, a4, X, a5, a6, a7⟩ := blank_run (place calls.flatten) calls.flatten Loader.init Loader.init rfl rfl rfl (le_refl _) (by
    intro i z hz
    unfold place
    rw [List.getD_eq_getElem?_getD, List.getElem?_map]
    change ((calls.flatten.zipIdx.filter (fun z => !blank z.1))[i]?) = some z at hz
    rw [show Loader.init.datums + i = i from Nat.zero_add i, hz]
    rfl)
  refine ⟨a1, a2, a3, a4, ?_, ?_⟩
  · rw [a5, a6]
    simp only [Loader.init, List.flatten_nil, List.nil_append, List.map_map]
    rfl
  · intro r hr
    rw [a5] at hr
    simp only [Loader.init, List.flatten_nil, List.nil_append] at hr
    obtain ⟨f, hf, rfl⟩ := List.mem_map.1 hr
    obtain ⟨i, hi, he⟩ := a7 f hf
    refine ⟨i, hi, ?_⟩
    rw [he]
    simp [Loader.init]

theorem unblank_ok {H : History} (h : HistoryOk H) : HistoryOk (unblank H) where
  gtLabel := fun x hx => h.gtLabel x (List.mem_filter.1 hx).1
  pdLabel := fun x hx => h.pdLabel x (List.mem_filter.1 hx).1
  iou := fun x hx => h.iou x (List.mem_filter.1 hx).1

theorem blank_sizes {calls calls' : List History} (h : calls'.flatten = unblank calls.flatten) (hS : SizesOk (Loader.init.addAll calls)) :
    SizesOk (Loader.init.addAll calls') := by
  obtain ⟨a1, a2, a3, a4, _⟩ := blank_rows h
  exact ⟨a1 ▸ hS.labels, a2 ▸ hS.gts, a3 ▸ hS.pds, a4.trans hS.datums⟩

theorem blank_up {calls calls' : List History} (h : calls'.flatten = unblank calls.flatten) :
    ∀ x ∈ loaderRows calls', ∀ y ∈ loaderRows calls', x.datum < y.datum → (inPlace calls.flatten x).datum < (inPlace calls.flatten y).datum := by
  intro x hx y hy hxy
  obtain ⟨i, hi, ei⟩ := (blank_rows h).2.2.2.2.2 x hx
  obtain ⟨j, hj, ej⟩ := (blank_rows h).2.2.2.2.2 y hy
  unfold inPlace
  dsimp only
  rw [ei, ej] at hxy ⊢
  rw [Int.toNat_natCast, Int.toNat_natCast]
  have := picked_up calls.flatten (fun z => !blank z.1) i j (by exact_mod_cast hxy) (by rw [unblank_length]; exact hj)
  exact_mod_cast this

theorem blank_renames {calls calls' : List History} (h : calls'.flatten = unblank calls.flatten) (hH : HistoryOk calls.flatten)
    (hS : SizesOk (Loader.init.addAll calls)) : Renames (inPlace calls.flatten) (loaderRows calls') where
  score := fun _ => rfl
  iou := fun _ => rfl
  gt0 := fun _ _ => Iff.rfl
  pd0 := fun _ _ => Iff.rfl
  datum := by
    intro x hx y hy
    constructor
    · intro he
      rcases lt_trichotomy x.datum y.datum with hlt | heq | hlt
      · exact absurd he (blank_up h x hx y hy hlt).ne
      · exact heq
      · exact absurd he.symm (blank_up h y hy x hx hlt).ne
    · intro he
      unfold inPlace
      rw [he]
  gt := fun _ _ _ _ => Iff.rfl
  pd := fun _ _ _ _ => Iff.rfl
  gl := fun _ _ _ _ => Iff.rfl
  pl := fun _ _ _ _ => Iff.rfl
  lab := fun _ _ => Iff.rfl
  ok := (loader_ok (calls := calls') (by rw [h]; exact unblank_ok hH) (blank_sizes h hS)).1.form
  ok' := by
    intro r hr
    apply (loader_ok hH hS).1.form
    rw [(blank_rows h).2.2.2.2.1]
    exact List.mem_map_of_mem hr
  up := fun _ _ _ _ _ hlt => hlt

section

variable (e e' : Built) (h : e'.calls.flatten = unblank e.calls.flatten) (hH : HistoryOk e.calls.flatten)
  (hS : SizesOk (Loader.init.addAll e.calls))

include h hH hS

theorem blank_counts (t s : Rat) (l : Int) :
    gtCount (rowsIn e.tables) l = gtCount (rowsIn e'.tables) l ∧ tpTotal t s e.chunks l = tpTotal t s e'.chunks l ∧
    fpTotal t s e.chunks l = fpTotal t s e'.chunks l := by
  have hH' : HistoryOk e'.calls.flatten := by rw [h]; exact unblank_ok hH
  have hR := blank_renames h hH hS
  obtain ⟨a1, a2, a3⟩ := counts_canonical (loader_divides e.stored) (loader_ok hH hS).1 e.ranked rfl t s l
  obtain ⟨b1, b2, b3⟩ := counts_canonical (loader_divides e'.stored) (loader_ok hH' (blank_sizes h hS)).1 e'.ranked rfl t s l
  rw [(blank_rows h).2.2.2.2.1] at a1 a2 a3
  rw [hR.gtOf (l := l) (fun _ _ => Iff.rfl)] at a1
  rw [hR.foundOf t s (l := l) (fun _ _ => Iff.rfl)] at a2
  rw [hR.activeOf s (l := l) (fun _ _ => Iff.rfl)] at a3
  refine ⟨a1.trans b1.symm, a2.trans b2.symm, ?_⟩
  omega

theorem blank_curve (t : Rat) (n : Nat) (l : Int) :
    (curveOf t n l e.chunks).prec = (curveOf t n l e'.chunks).prec ∧ (curveOf t n l e.chunks).score = (curveOf t n l e'.chunks).score := by
  have hH' : HistoryOk e'.calls.flatten := by rw [h]; exact unblank_ok hH
  have hR := blank_renames h hH hS
  have hok := (loader_ok hH hS).1
  have hok' := (loader_ok hH' (blank_sizes h hS)).1
  have d1 := loader_divides e.stored
  have d2 := loader_divides e'.stored
  have hseq : (e.chunks.flatten.map RRow.row).filter (fun r => decide (r.pl = l)) =
      ((e'.chunks.flatten.map RRow.row).filter (fun r => decide (r.pl = l))).map (inPlace e.calls.flatten) := by
    rw [ranked_canonical d1 hok e.ranked, ranked_canonical d2 hok' e'.ranked, lexsort_filter, lexsort_filter, ← lexsort_map hR.key,
      (blank_rows h).2.2.2.2.1, hR.chosen_label_all (blank_up h) (l := l) (fun _ _ => Iff.rfl)]
  have f1 := label_first l (outer_first (divides_ok d1 hok) e.ranked t)
  have f2 := label_first l (outer_first (divides_ok d2 hok') e'.ranked t)
  have hfm : ∀ (out : List RRow) (l : Int), (out.map RRow.row).filter (fun r => decide (r.pl = l))
      = (out.filter (fun r => decide (r.row.pl = l))).map RRow.row := by
    intro out l
    rw [List.filter_map]
    rfl
  rw [hfm, hfm] at hseq
  have hpar := parallel_of_rows (t := t) hR (fun r hr => mem_out d2 hok' e'.ranked (List.mem_filter.1 hr).1) f2 f1 hseq
  have hpt := parallel_points hpar n 0 0
  refine ⟨by rw [curve_prec, curve_prec, hpt], ?_⟩
  unfold curveOf
  rw [curve_score t _ l e.chunks _ (ranked_scores e.ranked), curve_score t _ l e'.chunks _ (ranked_scores e'.ranked)]
  show topScore _ (points t _ 0 0 _).1 = topScore _ (points t _ 0 0 _).1
  rw [hpt]

theorem blank_matrix (t s : Rat) (l m : Int) :
    cmTotal (rowsIn e.tables) t s l m = cmTotal (rowsIn e'.tables) t s l m ∧
    unmatchedGtTotal (rowsIn e.tables) t s l = unmatchedGtTotal (rowsIn e'.tables) t s l ∧
    unmatchedPdTotal (rowsIn e.tables) t s l = unmatchedPdTotal (rowsIn e'.tables) t s l := by
  have hH' : HistoryOk e'.calls.flatten := by rw [h]; exact unblank_ok hH
  have hR := blank_renames h hH hS
  have oF := (loader_ok hH hS).2
  have oL := (loader_ok hH' (blank_sizes h hS)).2
  have oL' : Owned (sortBy rankKey (loaderRows e'.calls)) := oL.subset (fun x hx => mem_sortBy.1 hx)
  have hR' : Renames (inPlace e.calls.flatten) (sortBy rankKey (loaderRows e'.calls)) := hR.subset (fun x hx => mem_sortBy.1 hx)
  have d1 := loader_divides e.stored
  have d2 := loader_divides e'.stored
  have hrows := (blank_rows h).2.2.2.2.1
  have oR : Owned ((sortBy rankKey (loaderRows e'.calls)).map (inPlace e.calls.flatten)) := by
    rw [← sortBy_map hR.key, ← hrows]
    exact oF.subset (fun x hx => mem_sortBy.1 hx)
  refine ⟨?_, ?_, ?_⟩
  · unfold cmTotal
    rw [additive_total (additive_cm t s _ _) oF d1, additive_total (additive_cm t s _ _) oL d2, hrows, sortBy_map hR.key]
    exact hR'.cmCell oL' oR t s (fun _ _ => Iff.rfl) (fun _ _ => Iff.rfl)
  · unfold unmatchedGtTotal
    rw [additive_total (additive_gt t s _) oF d1, additive_total (additive_gt t s _) oL d2, hrows, sortBy_map hR.key]
    exact hR'.unmatchedGt oL' oR t s (fun _ _ => Iff.rfl)
  · unfold unmatchedPdTotal
    rw [additive_total (additive_pd t s _) oF d1, additive_total (additive_pd t s _) oL d2, hrows, sortBy_map hR.key]
    exact hR'.unmatchedPd oL' oR t s (fun _ _ => Iff.rfl)

/-- **C125 (detection).** Adding images without ground truths and predictions anywhere, in any calls, changes nothing: for all thresholds the
report has the same metrics, and the confusion matrix the same cells, unmatched ground truths and unmatched predictions, however
the two evaluators are stored. -/
theorem C125_detection (hne : (Loader.init.addAll e.calls).labels ≠ []) {order order' : List Rat → List Nat} (ho : IsArgsort order)
    (ho' : IsArgsort order') {ious scores : List Rat} (hi : ious ≠ []) (hs : scores ≠ []) :
    (∃ R R', computePrecisionRecall order (tableLabels e.tables) (rowsIn e.tables) e.chunks ious scores = .ok R ∧
      computePrecisionRecall order' (tableLabels e'.tables) (rowsIn e'.tables) e'.chunks ious scores = .ok R' ∧ R.all.Perm R'.all) ∧
    ∀ t s v w, e.cell t s v w = e'.cell t s v w ∧ e.missed t s v = e'.missed t s v ∧ e.spurious t s v = e'.spurious t s v := by
  have hH' : HistoryOk e'.calls.flatten := by rw [h]; exact unblank_ok hH
  have hS' := blank_sizes h hS
  have hL := (blank_rows h).1
  have hid : ∀ v, labelId e.calls v = labelId e'.calls v := by
    intro v
    unfold labelId
    rw [hL]
  constructor
  · obtain ⟨hm, hA⟩ := C60_end_to_end e.calls (fun x hx => hH.detOk hx) hH hS hne e.stored.stored e.ranked rfl ho hi hs
    obtain ⟨hm', hB⟩ := C60_end_to_end e'.calls (fun x hx => hH'.detOk hx) hH' hS' (hL ▸ hne) e'.stored.stored e'.ranked rfl ho' hi hs
    obtain ⟨_, hk, _, _⟩ := loaded_labels e.calls (fun x hx => hH.detOk hx) e.stored.stored
    obtain ⟨_, hk', _, _⟩ := loaded_labels e'.calls (fun x hx => hH'.detOk hx) e'.stored.stored
    change ((tableLabels e.tables).map Prod.fst).Perm (List.range (tableLabels e.tables).length) at hk
    change ((tableLabels e'.tables).map Prod.fst).Perm (List.range (tableLabels e'.tables).length) at hk'
    have hn := List.Nodup.of_map _ (hk.nodup_iff.2 List.nodup_range)
    have hn' := List.Nodup.of_map _ (hk'.nodup_iff.2 List.nodup_range)
    have hp : (tableLabels e.tables).Perm (tableLabels e'.tables) := by
      refine (List.perm_ext_iff_of_nodup hn hn').2 fun lb => ?_
      rw [show lb ∈ tableLabels e.tables ↔ _ from hm lb, show lb ∈ tableLabels e'.tables ↔ _ from hm' lb, hL]
    refine ⟨_, _, hA, hB, ?_⟩
    exact expectedReport_renamed id (by rw [List.map_id]; exact hp) (fun _ _ => rfl)
      (fun x _ => (blank_counts e e' h hH hS 0 0 _).1) (fun t s x _ => (blank_counts e e' h hH hS t s _).2.1)
      (fun t s x _ => (blank_counts e e' h hH hS t s _).2.2)
      (fun t x _ => by
        dsimp only [id]
        rw [(blank_counts e e' h hH hS 0 0 _).1]
        exact (blank_curve e e' h hH hS t _ _).1)
      (fun t x _ => by
        dsimp only [id]
        rw [(blank_counts e e' h hH hS 0 0 _).1]
        exact (blank_curve e e' h hH hS t _ _).2)
  · intro t s v w
    unfold Built.cell Built.missed Built.spurious
    simp only [hid]
    exact ⟨(blank_matrix e e' h hH hS t s _ _).1, (blank_matrix e e' h hH hS t s _ 0).2.1, (blank_matrix e e' h hH hS t s _ 0).2.2⟩

end

/-- The hypotheses of `C125_detection` hold for two images with an object each, between images without annotations. -/
example : ∃ e e' : Built, e.calls = [[(⟨"x", [], [], ""⟩, fun _ _ => 0), foundImage "a" "cat"], [(⟨"y", [], [], ""⟩, fun _ _ => 0)], [foundImage "b" "dog"]] ∧
    e'.calls.flatten = unblank e.calls.flatten ∧ HistoryOk e.calls.flatten ∧ SizesOk (Loader.init.addAll e.calls) ∧
    (Loader.init.addAll e.calls).labels ≠ [] ∧ e'.calls.flatten.length = 2 := by
  obtain ⟨e, he⟩ := built_exists [[(⟨"x", [], [], ""⟩, fun _ _ => 0), foundImage "a" "cat"], [(⟨"y", [], [], ""⟩, fun _ _ => 0)], [foundImage "b" "dog"]]
  obtain ⟨e', he'⟩ := built_exists [[foundImage "a" "cat", foundImage "b" "dog"]]
  refine ⟨e, e', he, ?_, ?_, ?_, ?_, ?_⟩
  · rw [he, he']
    rfl
  · rw [he]
    refine ⟨by simp [foundImage], by simp [foundImage], ?_⟩
    intro x hx p g
    simp only [List.flatten_cons, List.flatten_nil, List.cons_append, List.nil_append, List.mem_cons, List.not_mem_nil, or_false] at hx
    rcases hx with rfl | rfl | rfl | rfl <;> norm_num [foundImage]
  · rw [he]
    exact ⟨by decide +kernel, by decide +kernel, by decide +kernel, by decide +kernel⟩
  · rw [he]
    decide +kernel
  · rw [he']
    rfl

end Verif.Detection
