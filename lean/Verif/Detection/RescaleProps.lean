import Verif.Detection.ShardProps

/-!
# C85, C86: label names and score scales in detection
-/

namespace Verif.Detection

open Verif.Cache (sortBy)
open Verif.Classification (unique addLabel)

/-- The annotation with other names for its labels and scores on another scale. -/
def Ann.mapped (ρ : String → String) (φ : Rat → Rat) (a : Ann) : Ann := { a with labels := a.labels.map ρ, scores := a.scores.map φ }

/-- The detection with other names for its labels and the scores of the predictions on another scale. -/
def Det.mapped (ρ : String → String) (φ : Rat → Rat) (d : Det) : Det :=
  { d with gts := d.gts.map (Ann.mapped ρ φ), pds := d.pds.map (Ann.mapped ρ φ) }

/-- The same with the geometry, which stays. -/
def mapDet (ρ : String → String) (φ : Rat → Rat) (x : Det × (Nat → Nat → Rat)) : Det × (Nat → Nat → Rat) := (x.1.mapped ρ φ, x.2)

/-- The scores of predictions in a history. -/
def ScoreIn (H : History) (s : Rat) : Prop := ∃ x ∈ H, ∃ a ∈ x.1.pds, s ∈ a.scores

/-- `φ` is strictly increasing on the scores and the threshold, none of them is negative before or after, and no score is moved across the
bound under which scores count as zero. -/
structure Rescales (φ : Rat → Rat) (H : History) (s : Rat) : Prop where
  mono : ∀ x y, (ScoreIn H x ∨ x = s) → (ScoreIn H y ∨ y = s) → x < y → φ x < φ y
  pos : ∀ x, (ScoreIn H x ∨ x = s) → 0 ≤ x ∧ 0 ≤ φ x
  guard : ∀ x, ScoreIn H x → (EPSILON < φ x ↔ EPSILON < x)

/-- The scale for the score column, where −1 stands for no prediction. -/
def ext (φ : Rat → Rat) (x : Rat) : Rat := if x = -1 then -1 else φ x

/-- A row on the other scale. -/
def Row.rescaled (φ : Rat → Rat) (r : Row) : Row := { r with score := ext φ r.score }

theorem ext_of_pos {φ : Rat → Rat} {x : Rat} (h : 0 ≤ x) : ext φ x = φ x := by
  unfold ext
  rw [if_neg]
  intro h'
  rw [h'] at h
  norm_num at h

/-! ## The loader -/

theorem idxOf_map {ρ : String → String} (hρ : ∀ x y, ρ x = ρ y → x = y) (l : List String) (v : String) : (l.map ρ).idxOf (ρ v) = l.idxOf v := by
  induction l with
  | nil => rfl
  | cons a l ih =>
    rw [List.map_cons, List.idxOf_cons, List.idxOf_cons, ih]
    by_cases h : a = v
    · subst h; simp
    · have : ρ a ≠ ρ v := fun e => h (hρ _ _ e)
      rw [beq_eq_false_iff_ne.2 h, beq_eq_false_iff_ne.2 this]

theorem idxOf?_map {ρ : String → String} (hρ : ∀ x y, ρ x = ρ y → x = y) (l : List String) (v : String) : (l.map ρ).idxOf? (ρ v) = l.idxOf? v := by
  induction l with
  | nil => rfl
  | cons a l ih =>
    rw [List.map_cons, List.idxOf?_cons, List.idxOf?_cons, ih]
    by_cases h : a = v
    · subst h; simp
    · have : ρ a ≠ ρ v := fun e => h (hρ _ _ e)
      rw [beq_eq_false_iff_ne.2 h, beq_eq_false_iff_ne.2 this]

theorem addLabel_map {ρ : String → String} (hρ : ∀ x y, ρ x = ρ y → x = y) (l : List String) (v : String) :
    addLabel (l.map ρ) (ρ v) = ((addLabel l v).1.map ρ, (addLabel l v).2) := by
  unfold addLabel
  rw [idxOf?_map hρ]
  cases l.idxOf? v with
  | none => simp
  | some i => rfl

theorem addLabel?_map {ρ : String → String} (hρ : ∀ x y, ρ x = ρ y → x = y) (l : List String) (o : Option String) :
    addLabel? (l.map ρ) (o.map ρ) = ((addLabel? l o).1.map ρ, (addLabel? l o).2) := by
  cases o with
  | none => rfl
  | some v => simp only [Option.map_some, addLabel?, addLabel_map hρ]

/-- A step of the loader and the same step for the mapped detection. -/
def StepMapped (ρ : String → String) (φ : Rat → Rat) (s s' : Step) : Prop :=
  s'.gl = s.gl.map ρ ∧ s'.pl = s.pl.map ρ ∧ ∀ a b, (s'.out a b).map FRow.row = ((s.out a b).map FRow.row).map (Row.rescaled φ)

theorem exec_mapped {ρ : String → String} (hρ : ∀ x y, ρ x = ρ y → x = y) {φ : Rat → Rat} {ss ss' : List Step}
    (h : List.Forall₂ (StepMapped ρ φ) ss ss') (ls : List String) :
    (exec ss' (ls.map ρ)).1 = (exec ss ls).1.map ρ ∧ (exec ss' (ls.map ρ)).2.map FRow.row = ((exec ss ls).2.map FRow.row).map (Row.rescaled φ) := by
  induction h generalizing ls with
  | nil => exact ⟨rfl, rfl⟩
  | cons h _ ih =>
    obtain ⟨h1, h2, h3⟩ := h
    simp only [exec, h1, h2, addLabel?_map hρ]
    obtain ⟨i1, i2⟩ := ih (addLabel? (addLabel? ls _).1 _).1
    refine ⟨i1, ?_⟩
    rw [List.map_append, List.map_append, List.map_append, h3, i2]

theorem forall₂_flatMap {α β γ δ : Type} {R : α → β → Prop} {S : γ → δ → Prop} {f : α → List γ} {g : β → List δ} {l : List α} {m : List β}
    (h : List.Forall₂ R l m) (hf : ∀ a b, R a b → List.Forall₂ S (f a) (g b)) : List.Forall₂ S (l.flatMap f) (m.flatMap g) := by
  induction h with
  | nil => exact .nil
  | cons h _ ih =>
    rw [List.flatMap_cons, List.flatMap_cons]
    exact List.rel_append (hf _ _ h) ih

theorem zipIdx_mapped {α β : Type} (f : α → β) (l : List α) (n : Nat) :
    List.Forall₂ (fun (x : α × Nat) (y : β × Nat) => x.1 ∈ l ∧ y = (f x.1, x.2)) (l.zipIdx n) ((l.map f).zipIdx n) := by
  rw [List.zipIdx_map]
  refine List.forall₂_map_right_iff.2 (List.forall₂_same.2 ?_)
  intro x hx
  obtain ⟨a, i⟩ := x
  exact ⟨(List.mem_zipIdx hx).2.2 ▸ List.getElem_mem _, rfl⟩

section

variable {ρ : String → String} {φ : Rat → Rat} {d : Det} (hpos : ∀ a ∈ d.pds, ∀ s ∈ a.scores, ext φ s = φ s)

include hpos

theorem pdSteps_mapped (k : Int) (p0 : Nat) {x : Ann × Nat} (hx : x.1 ∈ d.pds) :
    List.Forall₂ (StepMapped ρ φ) (pdSteps d k p0 x) (pdSteps (d.mapped ρ φ) k p0 (x.1.mapped ρ φ, x.2)) := by
  unfold pdSteps
  rw [Ann.mapped, List.zip_map, List.map_map]
  refine List.forall₂_map_left_iff.2 (List.forall₂_map_right_iff.2 (List.forall₂_same.2 ?_))
  intro y hy
  refine ⟨rfl, rfl, fun a b => ?_⟩
  have := hpos x.1 hx y.2 (List.of_mem_zip hy).2
  simp only [Function.comp_apply, List.map_cons, List.map_nil, pdRow, Row.rescaled, this, Prod.map_fst, Prod.map_snd]

theorem gtSteps_mapped (hg : ∀ a ∈ d.gts, a.labels ≠ []) (iou : Nat → Nat → Rat) (k : Int) (g0 p0 : Nat) {x : Ann × Nat} (hx : x.1 ∈ d.gts) :
    List.Forall₂ (StepMapped ρ φ) (gtSteps d iou k g0 p0 x) (gtSteps (d.mapped ρ φ) iou k g0 p0 (x.1.mapped ρ φ, x.2)) := by
  have hhead : (x.1.labels.map ρ).headD "" = ρ (x.1.labels.headD "") := by
    cases hl : x.1.labels with
    | nil => exact absurd hl (hg x.1 hx)
    | cons a l => rfl
  have ha1 : ∀ g, gtAlone (d.mapped ρ φ) iou g = gtAlone d iou g := by
    intro g
    simp only [gtAlone, Det.mapped, List.length_map]
  have ha2 : ∀ p, pdAlone (d.mapped ρ φ) iou p = pdAlone d iou p := by
    intro p
    simp only [pdAlone, Det.mapped, List.length_map]
  unfold gtSteps
  refine .cons ⟨?_, rfl, fun a b => ?_⟩ ?_
  · simp only [Ann.mapped, hhead, Option.map_some]
  · simp only [ha1]
    split
    · rfl
    · rfl
  · refine forall₂_flatMap (zipIdx_mapped (Ann.mapped ρ φ) d.pds 0) ?_
    rintro y _ ⟨hy, rfl⟩
    refine List.rel_append ?_ ?_
    · simp only [ha2]
      split
      · exact pdSteps_mapped hpos k p0 hy
      · exact .nil
    · split
      · have hl : List.Forall₂ (fun a b => b = ρ a) x.1.labels (x.1.mapped ρ φ).labels :=
          List.forall₂_map_right_iff.2 (List.forall₂_same.2 (fun _ _ => rfl))
        refine forall₂_flatMap hl ?_
        rintro gl _ rfl
        rw [show (y.1.mapped ρ φ).labels.zip (y.1.mapped ρ φ).scores = (y.1.labels.zip y.1.scores).map (Prod.map ρ φ) from List.zip_map ..,
          List.map_map]
        refine List.forall₂_map_left_iff.2 (List.forall₂_map_right_iff.2 (List.forall₂_same.2 ?_))
        intro z hz
        refine ⟨rfl, rfl, fun a b => ?_⟩
        have := hpos y.1 hy z.2 (List.of_mem_zip hz).2
        simp only [Function.comp_apply, List.map_cons, List.map_nil, pairRow, Row.rescaled, this, Prod.map_snd]
      · exact .nil

theorem detSteps_mapped (hg : ∀ a ∈ d.gts, a.labels ≠ []) (iou : Nat → Nat → Rat) (k : Int) (g0 p0 : Nat) :
    List.Forall₂ (StepMapped ρ φ) (detSteps d iou k g0 p0) (detSteps (d.mapped ρ φ) iou k g0 p0) := by
  unfold detSteps
  have : (d.mapped ρ φ).gts.length = d.gts.length := by simp only [Det.mapped, List.length_map]
  rw [this]
  split
  · refine forall₂_flatMap (zipIdx_mapped (Ann.mapped ρ φ) d.gts 0) ?_
    rintro x _ ⟨hx, rfl⟩
    exact gtSteps_mapped hpos hg iou k g0 p0 hx
  · refine forall₂_flatMap (zipIdx_mapped (Ann.mapped ρ φ) d.pds 0) ?_
    rintro x _ ⟨hx, rfl⟩
    exact pdSteps_mapped hpos k p0 hx

end

/-- No score is −1, or the scale keeps −1. -/
def Plain (φ : Rat → Rat) (H : History) : Prop := ∀ x ∈ H, ∀ a ∈ x.1.pds, ∀ s ∈ a.scores, ext φ s = φ s

theorem addAll_flatten (s : Loader) (calls : List History) : s.addAll calls = s.addData calls.flatten := by
  induction calls generalizing s with
  | nil => rfl
  | cons c cs ih =>
    rw [List.flatten_cons]
    unfold Loader.addAll Loader.addData at *
    rw [List.foldl_cons, List.foldl_append, ih]

theorem addData_mapped {ρ : String → String} (hρ : ∀ x y, ρ x = ρ y → x = y) (φ : Rat → Rat) {H : History}
    (hH : ∀ x ∈ H, ∀ a ∈ x.1.gts, a.labels ≠ []) (hp : Plain φ H) (s s' : Loader)
    (h1 : s'.labels = s.labels.map ρ) (h2 : s'.datums = s.datums) (h3 : s'.gts = s.gts) (h4 : s'.pds = s.pds)
    (h5 : s'.rows.flatten.map FRow.row = (s.rows.flatten.map FRow.row).map (Row.rescaled φ)) :
    let a := s.addData H
    let a' := s'.addData (H.map (mapDet ρ φ))
    a'.labels = a.labels.map ρ ∧ a'.datums = a.datums ∧ a'.gts = a.gts ∧ a'.pds = a.pds ∧
      a'.rows.flatten.map FRow.row = (a.rows.flatten.map FRow.row).map (Row.rescaled φ) := by
  induction H generalizing s s' with
  | nil => exact ⟨h1, h2, h3, h4, h5⟩
  | cons x H ih =>
    obtain ⟨e1, e2⟩ := exec_mapped hρ (detSteps_mapped (ρ := ρ) (φ := φ) (hp x (by simp)) (hH x (by simp)) x.2 s.datums s.gts s.pds) s.labels
    have := ih (fun y hy => hH y (by simp [hy])) (fun y hy => hp y (by simp [hy])) (s.addOne x) (s'.addOne (mapDet ρ φ x)) ?_ ?_ ?_ ?_ ?_
    · exact this
    · simp only [Loader.addOne, mapDet, h1, h2, h3, h4, e1]
    · simp only [Loader.addOne, h2]
    · simp only [Loader.addOne, h3, mapDet, Det.mapped, List.length_map]
    · simp only [Loader.addOne, h4, mapDet, Det.mapped, List.length_map]
    · simp only [Loader.addOne, mapDet, h1, h2, h3, h4, List.flatten_append, List.flatten_singleton, List.map_append, h5, e2]

theorem loader_mapped {ρ : String → String} (hρ : ∀ x y, ρ x = ρ y → x = y) (φ : Rat → Rat) {calls calls' : List History}
    (hc : calls'.flatten = calls.flatten.map (mapDet ρ φ)) (hH : HistoryOk calls.flatten) (hp : Plain φ calls.flatten) :
    (Loader.init.addAll calls').labels = (Loader.init.addAll calls).labels.map ρ ∧
    loaderRows calls' = (loaderRows calls).map (Row.rescaled φ) ∧
    (∀ v, labelId calls' (ρ v) = labelId calls v) ∧ (SizesOk (Loader.init.addAll calls) → SizesOk (Loader.init.addAll calls')) := by
  obtain ⟨a1, a2, a3, a4, a5⟩ := addData_mapped hρ φ (H := calls.flatten)
    (fun x hx a ha h0 => by have := hH.gtLabel x hx a ha; simp [h0] at this) hp Loader.init Loader.init rfl rfl rfl rfl rfl
  rw [← hc, ← addAll_flatten, ← addAll_flatten] at a1 a2 a3 a4 a5
  refine ⟨a1, a5, fun v => ?_, fun h => ⟨?_, ?_, ?_, ?_⟩⟩
  · unfold labelId
    rw [a1, idxOf_map hρ]
  · rw [a1, List.length_map]; exact h.labels
  · rw [a3]; exact h.gts
  · rw [a4]; exact h.pds
  · rw [a2]; exact h.datums

theorem historyOk_mapped {ρ : String → String} {φ : Rat → Rat} {H : History} (h : HistoryOk H) : HistoryOk (H.map (mapDet ρ φ)) := by
  refine ⟨?_, ?_, ?_⟩
  · intro x hx a ha
    obtain ⟨y, hy, rfl⟩ := List.mem_map.1 hx
    obtain ⟨b, hb, rfl⟩ := List.mem_map.1 ha
    simpa [Ann.mapped] using h.gtLabel y hy b hb
  · intro x hx a ha
    obtain ⟨y, hy, rfl⟩ := List.mem_map.1 hx
    obtain ⟨b, hb, rfl⟩ := List.mem_map.1 ha
    simpa [Ann.mapped] using h.pdLabel y hy b hb
  · intro x hx
    obtain ⟨y, hy, rfl⟩ := List.mem_map.1 hx
    exact h.iou y hy

/-! ## Rows -/

/-- The scale keeps the order of the scores in the rows, on which side of the threshold they are, and which of them count as zero. -/
structure Keeps (φ : Rat → Rat) (rows : List Row) (s : Rat) : Prop where
  order : ∀ x ∈ rows, ∀ y ∈ rows, ext φ x.score ≤ ext φ y.score ↔ x.score ≤ y.score
  cut : ∀ x ∈ rows, φ s ≤ ext φ x.score ↔ s ≤ x.score
  guard : ∀ x ∈ rows, EPSILON < ext φ x.score ↔ EPSILON < x.score

theorem Keeps.subset {φ : Rat → Rat} {rows sub : List Row} {s : Rat} (h : Keeps φ rows s) (hs : ∀ r ∈ sub, r ∈ rows) : Keeps φ sub s :=
  ⟨fun x hx y hy => h.order x (hs x hx) y (hs y hy), fun x hx => h.cut x (hs x hx), fun x hx => h.guard x (hs x hx)⟩

theorem Keeps.key {φ : Rat → Rat} {rows : List Row} {s : Rat} (h : Keeps φ rows s) {x y : Row} (hx : x ∈ rows) (hy : y ∈ rows) :
    rankKey x ≤ rankKey y ↔ rankKey (x.rescaled φ) ≤ rankKey (y.rescaled φ) := by
  have h1 := h.order x hx y hy
  have h2 := h.order y hy x hx
  rw [rankKey_le, rankKey_le, le_antisymm_iff, le_antisymm_iff, ← not_le, ← not_le]
  simp only [Row.rescaled, h1, h2]

theorem Keeps.sort {φ : Rat → Rat} {rows : List Row} {s : Rat} (h : Keeps φ rows s) :
    sortBy rankKey (rows.map (Row.rescaled φ)) = (sortBy rankKey rows).map (Row.rescaled φ) := by
  unfold sortBy
  symm
  apply List.map_mergeSort
  intro a ha b hb
  exact decide_eq_decide.2 (h.key ha hb)

theorem Keeps.lex {φ : Rat → Rat} {rows : List Row} {s : Rat} (h : Keeps φ rows s) :
    lexsort rankKey (rows.map (Row.rescaled φ)) = (lexsort rankKey rows).map (Row.rescaled φ) := by
  unfold lexsort
  symm
  apply List.map_insertionSort
  intro a ha b hb
  exact h.key ha hb

theorem kept_rescaled (φ : Rat → Rat) (l : List Row) : kept (l.map (Row.rescaled φ)) = (kept l).map (Row.rescaled φ) := by
  unfold kept
  dsimp only
  rw [List.filter_map, List.filter_map, List.filter_map, List.map_map]
  rfl

theorem uniqueFirst_rescaled (φ : Rat → Rat) (l : List Row) : uniqueFirst pdKey (l.map (Row.rescaled φ)) = (uniqueFirst pdKey l).map (Row.rescaled φ) := by
  unfold uniqueFirst
  have e : (l.map (Row.rescaled φ)).map pdKey = l.map pdKey := by rw [List.map_map]; rfl
  rw [e, List.map_filterMap]
  apply List.filterMap_congr
  intro k _
  rw [List.find?_map]
  rfl

theorem Keeps.chosen {φ : Rat → Rat} {rows : List Row} {s : Rat} (h : Keeps φ rows s) :
    chosen (rows.map (Row.rescaled φ)) = (chosen rows).map (Row.rescaled φ) := by
  unfold Verif.Detection.chosen
  rw [h.sort, kept_rescaled, uniqueFirst_rescaled]

theorem gtOf_rescaled (φ : Rat → Rat) (l : Int) (rows : List Row) : gtOf l (rows.map (Row.rescaled φ)) = gtOf l rows := by
  unfold gtOf distinct
  rw [List.filter_map, List.map_map]
  rfl

theorem Keeps.activeOf {φ : Rat → Rat} {rows : List Row} {s : Rat} (h : Keeps φ rows s) (l : Int) :
    activeOf (φ s) l (rows.map (Row.rescaled φ)) = activeOf s l rows := by
  unfold Verif.Detection.activeOf
  rw [h.chosen, List.filter_map, List.length_map]
  congr 1
  apply List.filter_congr
  intro r hr
  have hm := chosen_mem hr
  simp only [Function.comp_apply, Row.rescaled, h.cut r hm, h.guard r hm]

theorem Keeps.foundOf {φ : Rat → Rat} {rows : List Row} {s : Rat} (h : Keeps φ rows s) (t : Rat) (l : Int) :
    foundOf t (φ s) l (rows.map (Row.rescaled φ)) = foundOf t s l rows := by
  unfold Verif.Detection.foundOf
  rw [h.chosen, List.filter_map]
  congr 1
  have e : (Verif.Detection.chosen rows).filter ((fun r => decide ((r.pl = l ∧ φ s ≤ r.score ∧ EPSILON < r.score) ∧ (0 ≤ r.gt ∧ r.gl = r.pl) ∧ t ≤ r.iou)) ∘ Row.rescaled φ)
      = (Verif.Detection.chosen rows).filter (fun r => decide ((r.pl = l ∧ s ≤ r.score ∧ EPSILON < r.score) ∧ (0 ≤ r.gt ∧ r.gl = r.pl) ∧ t ≤ r.iou)) := by
    apply List.filter_congr
    intro r hr
    have hm := chosen_mem hr
    simp only [Function.comp_apply, Row.rescaled, h.cut r hm, h.guard r hm]
  rw [e]
  unfold distinct
  rw [List.map_map]
  rfl

theorem greedy_rescaled (φ : Rat → Rat) (a b : List Int) (l : List Row) : greedy a b (l.map (Row.rescaled φ)) = greedy a b l := by
  induction l generalizing a b with
  | nil => rfl
  | cons r l ih =>
    rw [List.map_cons, greedy, greedy, ih, ih]
    rfl

theorem matched_rescaled (φ : Rat → Rat) (l : List Row) (r : Row) : matched (l.map (Row.rescaled φ)) (r.rescaled φ) = matched l r := by
  unfold matched keptPairs
  rw [greedy_rescaled, List.zip_map_left, List.filter_map, List.map_map]
  rfl

theorem Keeps.maskScore {φ : Rat → Rat} {rows : List Row} {s : Rat} (h : Keeps φ rows s) {r : Row} (hr : r ∈ rows) :
    maskScore (φ s) (r.rescaled φ) = maskScore s r := by
  unfold Verif.Detection.maskScore Row.rescaled
  simp only [gt_iff_lt, ge_iff_le, h.cut r hr, h.guard r hr]

theorem Keeps.thresholded {φ : Rat → Rat} {rows : List Row} {s : Rat} (h : Keeps φ rows s) (t : Rat) {r : Row} (hr : r ∈ rows) :
    thresholded (rows.map (Row.rescaled φ)) t (φ s) (r.rescaled φ) = thresholded rows t s r := by
  unfold Verif.Detection.thresholded
  rw [matched_rescaled, h.maskScore hr]
  rfl

theorem Keeps.filter {φ : Rat → Rat} {rows : List Row} {P Q : Row → Bool} (h : ∀ r ∈ rows, P (r.rescaled φ) = Q r) :
    (rows.map (Row.rescaled φ)).filter P = (rows.filter Q).map (Row.rescaled φ) := by
  rw [List.filter_map]
  congr 1
  exact List.filter_congr h

theorem Keeps.cmCell {φ : Rat → Rat} {rows : List Row} {s : Rat} (h : Keeps φ rows s) (t : Rat) (g p : Int) :
    cmCell (rows.map (Row.rescaled φ)) t (φ s) g p = cmCell rows t s g p := by
  unfold Verif.Detection.cmCell
  rw [Keeps.filter (Q := fun r => pairTp rows t s r || pairMisclf rows t s r), List.map_map]
  · rfl
  · intro r hr
    unfold pairTp pairMisclf
    rw [h.thresholded t hr]
    rfl

theorem Keeps.passed {φ : Rat → Rat} {rows : List Row} {s : Rat} (h : Keeps φ rows s) (t : Rat) :
    (rows.map (Row.rescaled φ)).filter (Verif.Detection.thresholded (rows.map (Row.rescaled φ)) t (φ s))
      = (rows.filter (Verif.Detection.thresholded rows t s)).map (Row.rescaled φ) :=
  Keeps.filter (fun _ hr => h.thresholded t hr)

theorem Keeps.unmatchedGt {φ : Rat → Rat} {rows : List Row} {s : Rat} (h : Keeps φ rows s) (t : Rat) (l : Int) :
    unmatchedGt (rows.map (Row.rescaled φ)) t (φ s) l = unmatchedGt rows t s l := by
  unfold Verif.Detection.unmatchedGt
  rw [Keeps.filter (Q := pairFn rows t s), List.map_map]
  · rfl
  · intro r hr
    unfold pairFn
    rw [h.passed, List.map_map]
    rfl

theorem Keeps.unmatchedPd {φ : Rat → Rat} {rows : List Row} {s : Rat} (h : Keeps φ rows s) (t : Rat) (l : Int) :
    unmatchedPd (rows.map (Row.rescaled φ)) t (φ s) l = unmatchedPd rows t s l := by
  unfold Verif.Detection.unmatchedPd
  rw [Keeps.filter (Q := pairFp rows t s), List.map_map]
  · rfl
  · intro r hr
    unfold pairFp
    rw [h.passed, List.map_map, h.maskScore hr]
    rfl

theorem Rescales.keeps {φ : Rat → Rat} {calls : List History} {s : Rat} (h : Rescales φ calls.flatten s) : Keeps φ (loaderRows calls) s := by
  have hle : ∀ x y, (ScoreIn calls.flatten x ∨ x = s) → (ScoreIn calls.flatten y ∨ y = s) → (φ x ≤ φ y ↔ x ≤ y) := by
    intro x y hx hy
    rcases lt_trichotomy x y with hxy | rfl | hxy
    · exact ⟨fun _ => hxy.le, fun _ => (h.mono x y hx hy hxy).le⟩
    · exact ⟨fun _ => le_refl _, fun _ => le_refl _⟩
    · exact ⟨fun h' => absurd h' (not_le.2 (h.mono y x hy hx hxy)), fun h' => absurd h' (not_le.2 hxy)⟩
  have hsc : ∀ r ∈ loaderRows calls, r.score = -1 ∨ ScoreIn calls.flatten r.score := by
    intro r hr
    obtain ⟨k, d, fr, hk, hfr, rfl⟩ := loaderRows_mem hr
    have hd := List.mem_of_getElem? hk
    rcases hfr with ⟨_, _, _, _, rfl⟩ | ⟨p, a, label, score, hp, hz, _, rfl⟩ | ⟨_, _, p, a, _, label, score, _, hp, _, _, hz, rfl⟩
    · exact Or.inl rfl
    · exact Or.inr ⟨d, hd, a, List.mem_of_getElem? hp, (List.of_mem_zip hz).2⟩
    · exact Or.inr ⟨d, hd, a, List.mem_of_getElem? hp, (List.of_mem_zip hz).2⟩
  have hm : ext φ (-1) = -1 := by unfold ext; rw [if_pos rfl]
  have he : ∀ {x}, ScoreIn calls.flatten x → ext φ x = φ x := fun hx => ext_of_pos (h.pos _ (Or.inl hx)).1
  have hneg : ∀ {x}, (ScoreIn calls.flatten x ∨ x = s) → ¬ x ≤ -1 ∧ ¬ φ x ≤ -1 ∧ -1 ≤ x ∧ -1 ≤ φ x := by
    intro x hx
    obtain ⟨h1, h2⟩ := h.pos x hx
    refine ⟨?_, ?_, ?_, ?_⟩ <;> linarith
  have hE : ¬ EPSILON < (-1 : Rat) := by decide +kernel
  refine ⟨?_, ?_, ?_⟩
  · intro x hx y hy
    rcases hsc x hx with e1 | e1 <;> rcases hsc y hy with e2 | e2
    · rw [e1, e2, hm]
    · rw [e1, hm, he e2]
      exact ⟨fun _ => (hneg (Or.inl e2)).2.2.1, fun _ => (hneg (Or.inl e2)).2.2.2⟩
    · rw [e2, hm, he e1]
      exact ⟨fun h => absurd h (hneg (Or.inl e1)).2.1, fun h => absurd h (hneg (Or.inl e1)).1⟩
    · rw [he e1, he e2]
      exact hle _ _ (Or.inl e1) (Or.inl e2)
  · intro x hx
    rcases hsc x hx with e1 | e1
    · rw [e1, hm]
      exact ⟨fun h => absurd h (hneg (Or.inr rfl)).2.1, fun h => absurd h (hneg (Or.inr rfl)).1⟩
    · rw [he e1]
      exact hle _ _ (Or.inr rfl) (Or.inl e1)
  · intro x hx
    rcases hsc x hx with e1 | e1
    · rw [e1, hm]
    · rw [he e1]
      exact h.guard _ e1

/-! ## The curve -/

/-- Two sequences with the same decisions. -/
def SameHits (t : Rat) (a b : List RRow) : Prop := List.Forall₂ (fun x y : RRow => tpOuter t y = tpOuter t x) a b

theorem sameHits_points {t : Rat} {a b : List RRow} (h : SameHits t a b) (n total tp : Nat) :
    (points t n total tp b).1.map (fun p => (p.bin, p.prec)) = (points t n total tp a).1.map (fun p => (p.bin, p.prec)) := by
  unfold SameHits at h
  induction h generalizing total tp with
  | nil => rfl
  | cons h _ ih => simp only [points, h, List.map_cons, ih]

theorem updatePrec_points {ps qs : List Point} (h : ps.map (fun p => (p.bin, p.prec)) = qs.map (fun p => (p.bin, p.prec))) (c : Nat → Rat) :
    updatePrec c ps = updatePrec c qs := by
  have e : ∀ (ps : List Point) b, (ps.filter (fun p => decide (p.bin = b))).map Point.prec
      = ((ps.map (fun p => (p.bin, p.prec))).filter (fun p => decide (p.1 = b))).map Prod.snd := by
    intro ps b
    rw [List.filter_map, List.map_map]
    rfl
  funext b
  unfold updatePrec
  rw [e, e, h]

theorem sameHits_of_rows {t : Rat} {φ : Rat → Rat} {s : Rat} {rows : List Row} (hf : Keeps φ rows s) {a b : List RRow}
    (hm : ∀ r ∈ a, r.row ∈ rows)
    (ha : ∀ pre r post, a = pre ++ r :: post → (tpOuter t r = true ↔ 0 < t ∧ EPSILON < r.row.score ∧ FirstAt t pre r))
    (hb : ∀ pre r post, b = pre ++ r :: post → (tpOuter t r = true ↔ 0 < t ∧ EPSILON < r.row.score ∧ FirstAt t pre r))
    (h : b.map RRow.row = (a.map RRow.row).map (Row.rescaled φ)) : SameHits t a b := by
  have hlen : a.length = b.length := by
    have := congrArg List.length h
    simpa using this.symm
  unfold SameHits
  rw [List.forall₂_iff_get]
  refine ⟨hlen, ?_⟩
  intro i h1 h2
  have hrow : (b.get ⟨i, h2⟩).row = (a.get ⟨i, h1⟩).row.rescaled φ := by
    have := congrArg (fun l => l[i]?) h
    simp only [List.getElem?_map, List.getElem?_eq_getElem h1, List.getElem?_eq_getElem h2, Option.map_some, Option.some.injEq] at this
    exact this
  have e1 : a = a.take i ++ a.get ⟨i, h1⟩ :: a.drop (i + 1) := by simp
  have e2 : b = b.take i ++ b.get ⟨i, h2⟩ :: b.drop (i + 1) := by simp
  have hpre : (b.take i).map RRow.row = ((a.take i).map RRow.row).map (Row.rescaled φ) := by
    rw [List.map_take, h, List.map_take, List.map_take]
  have hai : (a.get ⟨i, h1⟩).row ∈ rows := hm _ (List.get_mem _ _)
  rw [Bool.eq_iff_iff, ha _ _ _ e1, hb _ _ _ e2, hrow]
  refine and_congr_right (fun _ => and_congr (hf.guard _ hai) ?_)
  unfold FirstAt
  rw [hrow]
  refine and_congr_right (fun _ => and_congr_right (fun _ => ?_))
  have key : ∀ p : List RRow, ∀ q : Row, (∀ x ∈ p, SameGroundtruth x.row q → Matches x.row → x.row.iou < t) ↔
      ∀ x ∈ p.map RRow.row, SameGroundtruth x q → Matches x → x.iou < t := by
    intro p q
    simp
  rw [key, key, hpre]
  simp only [List.mem_map, forall_exists_index, and_imp, forall_apply_eq_imp_iff₂]
  exact Iff.rfl

/-! ## C85 and C86 -/

/-- All counts, confusion matrices and metrics derived from them agree, label by label, between an evaluator `e` at score threshold `s` and
an evaluator `e'`, with the names given by `ρ`, at score threshold `s'`. -/
structure SameCounts (ρ : String → String) (e e' : Built) (t s s' : Rat) : Prop where
  gt : ∀ v, e'.gt (ρ v) = e.gt v
  tp : ∀ v, e'.tp t s' (ρ v) = e.tp t s v
  fp : ∀ v, e'.fp t s' (ρ v) = e.fp t s v
  fn : ∀ v, e'.fn t s' (ρ v) = e.fn t s v
  cell : ∀ g p, e'.cell t s' (ρ g) (ρ p) = e.cell t s g p
  missed : ∀ v, e'.missed t s' (ρ v) = e.missed t s v
  spurious : ∀ v, e'.spurious t s' (ρ v) = e.spurious t s v

/-- What is needed of the scale. -/
structure Fits (φ : Rat → Rat) (H : History) (s : Rat) : Prop where
  plain : Plain φ H
  keeps : ∀ calls : List History, (∀ x ∈ calls.flatten, x ∈ H) → Keeps φ (loaderRows calls) s

theorem Fits.sub {φ : Rat → Rat} {H H' : History} {s : Rat} (h : Fits φ H s) (hs : ∀ x ∈ H', x ∈ H) : Fits φ H' s :=
  ⟨fun x hx => h.plain x (hs x hx), fun calls hc => h.keeps calls (fun x hx => hs x (hc x hx))⟩

theorem Rescales.fits {φ : Rat → Rat} {H : History} {s : Rat} (h : Rescales φ H s) : Fits φ H s := by
  refine ⟨fun x hx a ha y hy => ext_of_pos (h.pos y (Or.inl ⟨x, hx, a, ha, hy⟩)).1, fun calls hc => ?_⟩
  have hs : ∀ y, ScoreIn calls.flatten y → ScoreIn H y := by
    rintro y ⟨z, hz, hy⟩
    exact ⟨z, hc z hz, hy⟩
  have : Rescales φ calls.flatten s := ⟨fun a b ha hb => h.mono a b (ha.imp_left (hs a)) (hb.imp_left (hs b)),
    fun a ha => h.pos a (ha.imp_left (hs a)), fun a ha => h.guard a (hs a ha)⟩
  exact this.keeps

theorem fits_id (H : History) (s : Rat) : Fits (fun x => x) H s := by
  have he : ∀ x, ext (fun x => x) x = x := by
    intro x
    unfold ext
    split
    · rename_i h; exact h.symm
    · rfl
  refine ⟨fun _ _ _ _ y _ => he y, fun calls _ => ⟨fun x _ y _ => ?_, fun x _ => ?_, fun x _ => ?_⟩⟩
  · rw [he, he]
  · rw [he]
  · rw [he]

theorem sameCounts_mapped {ρ : String → String} (hρ : ∀ x y, ρ x = ρ y → x = y) {φ : Rat → Rat} {s : Rat} {e e' : Built}
    (h : e'.calls.flatten.Perm (e.calls.flatten.map (mapDet ρ φ))) (hφ : Fits φ e.calls.flatten s)
    (hH : HistoryOk e.calls.flatten) (hS : SizesOk (Loader.init.addAll e.calls)) (hS' : SizesOk (Loader.init.addAll e'.calls)) (t : Rat) :
    SameCounts ρ e e' t s (φ s) := by
  have hH' : HistoryOk e'.calls.flatten := (historyOk_mapped hH).perm h.symm
  have hone : ∀ x ∈ e.calls.flatten, loaderRows [[mapDet ρ φ x]] = (loaderRows [[x]]).map (Row.rescaled φ) ∧
      (∀ v, labelId [[mapDet ρ φ x]] (ρ v) = labelId [[x]] v) ∧ Keeps φ (loaderRows [[x]]) s := by
    intro x hx
    have hH1 : HistoryOk ([[x]] : List History).flatten := historyOk_sub hH (fun y hy => by rw [List.mem_singleton.1 hy]; exact hx)
    have hr := hφ.sub (H' := ([[x]] : List History).flatten) (fun y hy => by rw [List.mem_singleton.1 hy]; exact hx)
    obtain ⟨_, h2, h3, _⟩ := loader_mapped hρ φ (calls := [[x]]) (calls' := [[mapDet ρ φ x]]) rfl hH1 hr.plain
    exact ⟨h2, h3, hr.keeps [[x]] (fun _ h => h)⟩
  have hsum : ∀ (F F' : Det × (Nat → Nat → Rat) → Nat), (∀ x ∈ e.calls.flatten, F' (mapDet ρ φ x) = F x) →
      (e'.calls.flatten.map F').sum = (e.calls.flatten.map F).sum := by
    intro F F' hF
    rw [(h.map F').sum_eq, List.map_map]
    congr 1
    exact List.map_congr_left hF
  have hcnt := fun v => e.counts_alone hH hS t s v
  have hcnt' := fun v => e'.counts_alone hH' hS' t (φ s) v
  have hgt : ∀ v, e'.gt (ρ v) = e.gt v := by
    intro v
    rw [(hcnt v).1, (hcnt' (ρ v)).1]
    apply hsum
    intro x hx
    obtain ⟨h1, h2, _⟩ := hone x hx
    rw [h1, h2, gtOf_rescaled]
  have htp : ∀ v, e'.tp t (φ s) (ρ v) = e.tp t s v := by
    intro v
    rw [(hcnt v).2.1, (hcnt' (ρ v)).2.1]
    apply hsum
    intro x hx
    obtain ⟨h1, h2, h3⟩ := hone x hx
    rw [h1, h2, h3.foundOf]
  have hfp : ∀ v, e'.tp t (φ s) (ρ v) + e'.fp t (φ s) (ρ v) = e.tp t s v + e.fp t s v := by
    intro v
    rw [(hcnt v).2.2, (hcnt' (ρ v)).2.2]
    apply hsum
    intro x hx
    obtain ⟨h1, h2, h3⟩ := hone x hx
    rw [h1, h2, h3.activeOf]
  obtain ⟨a1, a2, a3⟩ := e.cm_alone hH hS t s
  obtain ⟨b1, b2, b3⟩ := e'.cm_alone hH' hS' t (φ s)
  have hsub : ∀ {rows : List Row}, ∀ r ∈ sortBy rankKey rows, r ∈ rows := fun r hr => mem_sortBy.1 hr
  refine ⟨hgt, htp, fun v => ?_, fun v => ?_, fun g p => ?_, fun v => ?_, fun v => ?_⟩
  · have := hfp v
    have := htp v
    omega
  · have := e.fn_eq hH hS t s v
    have := e'.fn_eq hH' hS' t (φ s) (ρ v)
    have := htp v
    have := hgt v
    omega
  · rw [a1, b1]
    apply hsum
    intro x hx
    obtain ⟨h1, h2, h3⟩ := hone x hx
    rw [h1, h2, h2, h3.sort, (h3.subset hsub).cmCell]
  · rw [a2, b2]
    apply hsum
    intro x hx
    obtain ⟨h1, h2, h3⟩ := hone x hx
    rw [h1, h2, h3.sort, (h3.subset hsub).unmatchedGt]
  · rw [a3, b3]
    apply hsum
    intro x hx
    obtain ⟨h1, h2, h3⟩ := hone x hx
    rw [h1, h2, h3.sort, (h3.subset hsub).unmatchedPd]

theorem curve_mapped {ρ : String → String} (hρ : ∀ x y, ρ x = ρ y → x = y) {φ : Rat → Rat} {s : Rat} {e e' : Built}
    (h : e'.calls.flatten = e.calls.flatten.map (mapDet ρ φ)) (hφ : Fits φ e.calls.flatten s)
    (hH : HistoryOk e.calls.flatten) (hS : SizesOk (Loader.init.addAll e.calls)) (t : Rat) (v : String) :
    (curveOf t (e'.gt (ρ v)) (labelId e'.calls (ρ v)) e'.chunks).prec = (curveOf t (e.gt v) (labelId e.calls v) e.chunks).prec := by
  obtain ⟨_, g2, g3, g4⟩ := loader_mapped hρ φ h hH hφ.plain
  have hS' := g4 hS
  have hH' : HistoryOk e'.calls.flatten := by rw [h]; exact historyOk_mapped hH
  have hk := hφ.keeps e.calls (fun _ h => h)
  obtain ⟨k1, _⟩ := loader_ok hH hS
  obtain ⟨k2, _⟩ := loader_ok hH' hS'
  have d1 := loader_divides e.stored
  have d2 := loader_divides e'.stored
  have hseq : e'.chunks.flatten.map RRow.row = (e.chunks.flatten.map RRow.row).map (Row.rescaled φ) := by
    rw [ranked_canonical d1 k1 e.ranked, ranked_canonical d2 k2 e'.ranked, g2, hk.chosen, (hk.subset (fun r hr => chosen_mem hr)).lex]
  rw [(sameCounts_mapped hρ (by rw [h]) hφ hH hS hS' t).gt, g3, curve_prec, curve_prec]
  apply updatePrec_points
  apply sameHits_points
  refine sameHits_of_rows hk (fun r hr => mem_out d1 k1 e.ranked (List.mem_filter.1 hr).1)
    (label_first _ (outer_first (divides_ok d1 k1) e.ranked t)) (label_first _ (outer_first (divides_ok d2 k2) e'.ranked t)) ?_
  have hfm : ∀ (out : List RRow) (l : Int), (out.filter (fun r => decide (r.row.pl = l))).map RRow.row
      = (out.map RRow.row).filter (fun r => decide (r.pl = l)) := by
    intro out l
    rw [List.filter_map]
    rfl
  rw [hfm, hfm, hseq, List.filter_map]
  rfl

/-- **C85 (detection).** The same detections with other names for the labels, different labels having different names, added in any order
and stored in any way: every label has the counts of the label it renames (so the same precision, recall and F1), and the entries of the
confusion matrix and the unmatched annotations are the same. -/
theorem C85_detection {ρ : String → String} (hρ : ∀ x y, ρ x = ρ y → x = y) {e e' : Built}
    (h : e'.calls.flatten.Perm (e.calls.flatten.map (mapDet ρ (fun s => s)))) (hH : HistoryOk e.calls.flatten)
    (hS : SizesOk (Loader.init.addAll e.calls)) (hS' : SizesOk (Loader.init.addAll e'.calls)) (t s : Rat) : SameCounts ρ e e' t s s :=
  sameCounts_mapped hρ h (fits_id _ s) hH hS hS' t

/-- **C85 (average precision).** With the detections in the same order, the precision-recall curves and average precisions are those of the
renamed labels. (In another order see C75.) -/
theorem C85_average_precision {ρ : String → String} (hρ : ∀ x y, ρ x = ρ y → x = y) {e e' : Built}
    (h : e'.calls.flatten = e.calls.flatten.map (mapDet ρ (fun s => s))) (hH : HistoryOk e.calls.flatten)
    (hS : SizesOk (Loader.init.addAll e.calls)) (t : Rat) (v : String) :
    (curveOf t (e'.gt (ρ v)) (labelId e'.calls (ρ v)) e'.chunks).prec = (curveOf t (e.gt v) (labelId e.calls v) e.chunks).prec ∧
    averagePrecision (curveOf t (e'.gt (ρ v)) (labelId e'.calls (ρ v)) e'.chunks).prec
      = averagePrecision (curveOf t (e.gt v) (labelId e.calls v) e.chunks).prec := by
  have := curve_mapped hρ h (fits_id _ 0) hH hS t v
  exact ⟨this, by rw [this]⟩

/-- **C86 (detection).** The same detections with scores on another scale, the threshold moved to that scale as well: if the scale is strictly
increasing on scores and threshold, negative nowhere, and moves no score across the bound under which scores count as zero, then all counts
and the confusion matrix stay the same. -/
theorem C86_detection {φ : Rat → Rat} {s : Rat} {e e' : Built} (hφ : Rescales φ e.calls.flatten s)
    (h : e'.calls.flatten.Perm (e.calls.flatten.map (mapDet (fun v => v) φ))) (hH : HistoryOk e.calls.flatten)
    (hS : SizesOk (Loader.init.addAll e.calls)) (hS' : SizesOk (Loader.init.addAll e'.calls)) (t : Rat) :
    SameCounts (fun v => v) e e' t s (φ s) :=
  sameCounts_mapped (fun _ _ he => he) h hφ.fits hH hS hS' t

/-- **C86 (average precision).** The precision-recall curve and the average precision depend on the order of the scores only. -/
theorem C86_average_precision {φ : Rat → Rat} {s : Rat} {e e' : Built} (hφ : Rescales φ e.calls.flatten s)
    (h : e'.calls.flatten = e.calls.flatten.map (mapDet (fun v => v) φ)) (hH : HistoryOk e.calls.flatten)
    (hS : SizesOk (Loader.init.addAll e.calls)) (t : Rat) (v : String) :
    (curveOf t (e'.gt v) (labelId e'.calls v) e'.chunks).prec = (curveOf t (e.gt v) (labelId e.calls v) e.chunks).prec ∧
    averagePrecision (curveOf t (e'.gt v) (labelId e'.calls v) e'.chunks).prec
      = averagePrecision (curveOf t (e.gt v) (labelId e.calls v) e.chunks).prec := by
  have := curve_mapped (ρ := fun v => v) (fun _ _ he => he) h hφ.fits hH hS t v
  exact ⟨this, by rw [this]⟩

/-- The two sample images with longer names, and with all scores halved, at the threshold 1/2. -/
example : ∃ e e' e'' : Built, e.calls.flatten = [found, mistaken] ∧ e'.calls.flatten = e.calls.flatten.map (mapDet ("n" ++ ·) (fun s => s)) ∧
    e''.calls.flatten = e.calls.flatten.map (mapDet (fun v => v) (· / 2)) ∧ (∀ x y, "n" ++ x = "n" ++ y → x = y) ∧
    Rescales (· / 2) e.calls.flatten (1 / 2) ∧ HistoryOk e.calls.flatten ∧ SizesOk (Loader.init.addAll e.calls) ∧
    SizesOk (Loader.init.addAll e'.calls) ∧ SizesOk (Loader.init.addAll e''.calls) := by
  obtain ⟨e, he⟩ := built_exists [[found, mistaken]]
  obtain ⟨e', he'⟩ := built_exists [[found, mistaken].map (mapDet ("n" ++ ·) (fun s => s))]
  obtain ⟨e'', he''⟩ := built_exists [[found, mistaken].map (mapDet (fun v => v) (· / 2))]
  have h0 : e.calls.flatten = [found, mistaken] := by rw [he]; rfl
  have hs : ∀ x, ScoreIn e.calls.flatten x → x = 9 / 10 := by
    rw [h0]
    rintro x ⟨d, hd, a, ha, hx⟩
    rcases List.mem_pair.1 hd with rfl | rfl <;> simp [found, mistaken] at ha <;> subst ha <;> simpa using hx
  refine ⟨e, e', e'', h0, ?_, ?_, ?_, ⟨?_, ?_, ?_⟩, by rw [h0]; exact found_ok, ?_, ?_, ?_⟩
  · rw [h0, he']; rfl
  · rw [h0, he'']; rfl
  · intro x y h
    exact String.ext (by simpa using congrArg String.toList h)
  · intro x y _ _ hxy
    show x / 2 < y / 2
    linarith
  · intro x hx
    have : 0 ≤ x := by
      rcases hx with h | rfl
      · rw [hs x h]; norm_num
      · norm_num
    exact ⟨this, by show 0 ≤ x / 2; linarith⟩
  · intro x hx
    rw [hs x hx]
    unfold EPSILON
    norm_num
  · rw [he]; exact found_sizes _ _ (Or.inl ⟨rfl, rfl⟩)
  · rw [he']; exact ⟨by decide +kernel, by decide +kernel, by decide +kernel, by decide +kernel⟩
  · rw [he'']; exact ⟨by decide +kernel, by decide +kernel, by decide +kernel, by decide +kernel⟩

end Verif.Detection
