import Verif.Detection.ExampleProps

/-! # Lemmas for C59: confusion matrix with examples -/

namespace Verif.Detection

/-! ## The loop -/

/-- Several examples. -/
def Cell.addAll {α : Type} (c : Cell α) (l : List α) : Cell α := ⟨c.count + l.length, c.examples ++ l⟩

theorem Cell.addAll_nil {α : Type} (c : Cell α) : c.addAll [] = c := by
  unfold Cell.addAll
  simp

theorem Cell.addAll_append {α : Type} (c : Cell α) (l m : List α) : c.addAll (l ++ m) = (c.addAll l).addAll m := by
  unfold Cell.addAll
  simp [Nat.add_assoc]

theorem Cell.addAll_add {α : Type} (c : Cell α) (l : List α) (a : α) : (c.addAll l).add a = c.addAll (l ++ [a]) := by
  unfold Cell.addAll Cell.add
  simp [Nat.add_assoc]

/-- The examples with a label. -/
def withLabel {β α : Type} [DecidableEq β] (l : β) (A : List (β × α)) : List α := (A.filter (fun x => decide (x.1 = l))).map Prod.snd

theorem withLabel_append {β α : Type} [DecidableEq β] (l : β) (A B : List (β × α)) :
    withLabel l (A ++ B) = withLabel l A ++ withLabel l B := by
  unfold withLabel
  rw [List.filter_append, List.map_append]

/-- The matrix with further examples. -/
def CmExamples.addLists (m : CmExamples) (A : List (String × Option String × Option String)) (B : List (String × Option String × Option String))
    (C : List ((String × String) × Option String × Option String × Option String)) : CmExamples :=
  ⟨fun l => (m.ugt l).addAll (withLabel l A), fun l => (m.upd l).addAll (withLabel l B),
    fun g p => (m.cm g p).addAll (withLabel (g, p) C)⟩

theorem addLists_nil (m : CmExamples) : m.addLists [] [] [] = m := by
  unfold CmExamples.addLists withLabel
  simp [Cell.addAll_nil]

theorem addLists_append (m : CmExamples) (A A' : List (String × Option String × Option String)) (B B' : List (String × Option String × Option String))
    (C C' : List ((String × String) × Option String × Option String × Option String)) :
    m.addLists (A ++ A') (B ++ B') (C ++ C') = (m.addLists A B C).addLists A' B' C' := by
  unfold CmExamples.addLists
  simp only [withLabel_append, Cell.addAll_append]

theorem update_add {β α : Type} [DecidableEq β] (f : β → Cell α) (A : List (β × α)) (b : β) (a : α) :
    Function.update (fun l => (f l).addAll (withLabel l A)) b (((f b).addAll (withLabel b A)).add a)
      = fun l => (f l).addAll (withLabel l (A ++ [(b, a)])) := by
  funext l
  by_cases h : l = b
  · subst h
    rw [Function.update_self, Cell.addAll_add, withLabel_append]
    simp [withLabel]
  · have h' : ¬ b = l := fun e => h e.symm
    rw [Function.update_of_ne h, withLabel_append]
    simp [withLabel, h']

theorem step_ugt {tbl : List FRow} {L : List String} {l : List (List Int)} {A : List (String × Option String × Option String)}
    (hA : List.Forall₂ (fun key a => labelAt L (key.getD 2 0) = some a.1 ∧ (datumMap tbl).lookup (key.getD 0 0) = some a.2.1 ∧
      (gtMap tbl).lookup (key.getD 1 0) = some a.2.2) l A) (m : CmExamples) (B : List (String × Option String × Option String))
    (C : List ((String × String) × Option String × Option String × Option String)) (n : Nat) :
    addUgt tbl L l (m.addLists (A.take n) B C) n = some (m.addLists (A.take (n + 1)) B C) := by
  unfold addUgt
  by_cases h : n < l.length
  · have hn : n < A.length := by rw [← hA.length_eq]; exact h
    have hget := (List.forall₂_iff_get.1 hA).2 n h hn
    simp only [List.get_eq_getElem] at hget
    rw [List.getElem?_eq_getElem h]
    dsimp only
    rw [hget.1, hget.2.1, hget.2.2, List.take_add_one, List.getElem?_eq_getElem hn]
    show some _ = some _
    congr 1
    unfold CmExamples.addLists
    dsimp only
    rw [update_add]
    rfl
  · have hn : ¬ n < A.length := by rw [← hA.length_eq]; exact h
    rw [List.getElem?_eq_none (by omega), List.take_of_length_le (by omega), List.take_of_length_le (by omega)]

theorem step_upd {tbl : List FRow} {L : List String} {l : List (List Int)} {B : List (String × Option String × Option String)}
    (hB : List.Forall₂ (fun key a => labelAt L (key.getD 2 0) = some a.1 ∧ (datumMap tbl).lookup (key.getD 0 0) = some a.2.1 ∧
      (pdMap tbl).lookup (key.getD 1 0) = some a.2.2) l B) (m : CmExamples) (A : List (String × Option String × Option String))
    (C : List ((String × String) × Option String × Option String × Option String)) (n : Nat) :
    addUpd tbl L l (m.addLists A (B.take n) C) n = some (m.addLists A (B.take (n + 1)) C) := by
  unfold addUpd
  by_cases h : n < l.length
  · have hn : n < B.length := by rw [← hB.length_eq]; exact h
    have hget := (List.forall₂_iff_get.1 hB).2 n h hn
    simp only [List.get_eq_getElem] at hget
    rw [List.getElem?_eq_getElem h]
    dsimp only
    rw [hget.1, hget.2.1, hget.2.2, List.take_add_one, List.getElem?_eq_getElem hn]
    show some _ = some _
    congr 1
    unfold CmExamples.addLists
    dsimp only
    rw [update_add]
    rfl
  · have hn : ¬ n < B.length := by rw [← hB.length_eq]; exact h
    rw [List.getElem?_eq_none (by omega), List.take_of_length_le (by omega), List.take_of_length_le (by omega)]

theorem update_add2 {α : Type} (f : String → String → Cell α) (C : List ((String × String) × α)) (g p : String) (a : α) :
    Function.update (fun g p => (f g p).addAll (withLabel (g, p) C)) g
      (Function.update (fun p => (f g p).addAll (withLabel (g, p) C)) p (((f g p).addAll (withLabel (g, p) C)).add a))
      = fun g' p' => (f g' p').addAll (withLabel (g', p') (C ++ [((g, p), a)])) := by
  funext g' p'
  by_cases h : g' = g
  · subst h
    rw [Function.update_self]
    by_cases h : p' = p
    · subst h
      rw [Function.update_self, Cell.addAll_add, withLabel_append]
      simp [withLabel]
    · have h' : ¬ p = p' := fun e => h e.symm
      rw [Function.update_of_ne h, withLabel_append]
      simp [withLabel, h']
  · have h' : ¬ g = g' := fun e => h e.symm
    rw [Function.update_of_ne h, withLabel_append]
    simp [withLabel, h']

theorem step_match {tbl : List FRow} {L : List String} {l : List (List Int)}
    {C : List ((String × String) × Option String × Option String × Option String)}
    (hC : List.Forall₂ (fun key a => labelAt L (key.getD 3 0) = some a.1.1 ∧ labelAt L (key.getD 4 0) = some a.1.2 ∧
      (datumMap tbl).lookup (key.getD 0 0) = some a.2.1 ∧ (gtMap tbl).lookup (key.getD 1 0) = some a.2.2.1 ∧
      (pdMap tbl).lookup (key.getD 2 0) = some a.2.2.2) l C) (m : CmExamples) (A B : List (String × Option String × Option String)) (n : Nat) :
    addMatch tbl L l (m.addLists A B (C.take n)) n = some (m.addLists A B (C.take (n + 1))) := by
  unfold addMatch
  by_cases h : n < l.length
  · have hn : n < C.length := by rw [← hC.length_eq]; exact h
    have hget := (List.forall₂_iff_get.1 hC).2 n h hn
    simp only [List.get_eq_getElem] at hget
    rw [List.getElem?_eq_getElem h]
    dsimp only
    rw [hget.1, hget.2.1, hget.2.2.1, hget.2.2.2.1, hget.2.2.2.2, List.take_add_one, List.getElem?_eq_getElem hn]
    show some _ = some _
    congr 1
    unfold CmExamples.addLists
    dsimp only
    rw [update_add2]
    rfl
  · have hn : ¬ n < C.length := by rw [← hC.length_eq]; exact h
    rw [List.getElem?_eq_none (by omega), List.take_of_length_le (by omega), List.take_of_length_le (by omega)]

/-- `range` loop with an invariant. -/
theorem foldlM_range {σ : Type} (f : σ → Nat → Option σ) (S : Nat → σ) (h : ∀ n, f (S n) n = some (S (n + 1))) (n : Nat) :
    (List.range n).foldlM f (S 0) = some (S n) := by
  induction n with
  | zero => rfl
  | succ n ih =>
    rw [List.range_succ, List.foldlM_append, ih]
    show (List.foldlM f (S n) [n]) = _
    rw [List.foldlM_cons, h n]
    rfl

/-! ## One table -/

theorem to32_id {x : Int} (h : -1 ≤ x) (h' : x < 2 ^ 31) : to32 x = x := by
  unfold to32
  rw [BitVec.toInt_ofInt]
  apply Int.bmod_eq_of_le <;> norm_num at * <;> omega

/-- What `unpackCm` needs of a table. -/
structure TableOk (L : List String) (tbl : List FRow) : Prop where
  owned : Owned (tbl.map FRow.row)
  labels : L.length ≤ 100000
  gl : ∀ f ∈ tbl, (0 ≤ f.row.gt ∧ ∃ i : Nat, f.row.gl = (i : Int) ∧ i < L.length) ∨ (f.row.gt < 0 ∧ f.row.gl = -1)
  pl : ∀ f ∈ tbl, (0 ≤ f.row.pd ∧ ∃ i : Nat, f.row.pl = (i : Int) ∧ i < L.length) ∨ (f.row.pd < 0 ∧ f.row.pl = -1)

variable {L : List String} {tbl : List FRow}

theorem ids32 (h : TableOk L tbl) {r : Row} (hr : r ∈ tbl.map FRow.row) :
    to32 r.datum = r.datum ∧ to32 r.gt = r.gt ∧ to32 r.pd = r.pd ∧ to32 r.gl = r.gl ∧ to32 r.pl = r.pl := by
  obtain ⟨h1, h2, h3⟩ := h.owned.ids r hr
  have hl := h.labels
  obtain ⟨f, hf, rfl⟩ := List.mem_map.1 hr
  refine ⟨to32_id (by have := h3.1; omega) h3.2, ?_, ?_, ?_, ?_⟩
  · rcases h1 with h | h
    · exact to32_id (by omega) (by rw [h]; norm_num)
    · exact to32_id (by have := h.1; omega) h.2
  · rcases h2 with h | h
    · exact to32_id (by omega) (by rw [h]; norm_num)
    · exact to32_id (by have := h.1; omega) h.2
  · rcases h.gl f hf with ⟨_, i, hi, hlt⟩ | ⟨_, hi⟩
    · apply to32_id <;> rw [hi] <;> norm_num <;> omega
    · apply to32_id <;> rw [hi] <;> norm_num
  · rcases h.pl f hf with ⟨_, i, hi, hlt⟩ | ⟨_, hi⟩
    · apply to32_id <;> rw [hi] <;> norm_num <;> omega
    · apply to32_id <;> rw [hi] <;> norm_num

theorem map32 {tbl : List FRow} (q : Row → Bool) (c c' : Row → List Int)
    (hc : ∀ r ∈ tbl.map FRow.row, c r = c' r) : ((tbl.map FRow.row).filter q).map c = ((tbl.map FRow.row).filter q).map c' := by
  apply List.map_congr_left
  intro r hr
  exact hc r (List.mem_filter.1 hr).1

/-- The label text of an id. -/
def labelText (L : List String) (i : Int) : String := L.getD i.toNat ""

/-- The text of an id. -/
def textOf (m : List (Int × Option String)) (i : Int) : Option String := (m.lookup i).getD none

/-- The unmatched ground truths of a table. -/
def ugtRows (tbl : List FRow) (t s : Rat) : List (List Int) :=
  uniqueRows (((tbl.map FRow.row).filter (pairFn (tbl.map FRow.row) t s)).map (fun r => [r.datum, r.gt, r.gl]))

/-- The unmatched predictions of a table. -/
def updRows (tbl : List FRow) (t s : Rat) : List (List Int) :=
  uniqueRows (((tbl.map FRow.row).filter (pairFp (tbl.map FRow.row) t s)).map (fun r => [r.datum, r.pd, r.pl]))

/-- The matched pairs of a table. -/
def matchRows (tbl : List FRow) (t s : Rat) : List (List Int) :=
  uniqueRows (((tbl.map FRow.row).filter (fun r => pairTp (tbl.map FRow.row) t s r || pairMisclf (tbl.map FRow.row) t s r)).map
    (fun r => [r.datum, r.gt, r.pd, r.gl, r.pl]))

/-- The examples of a list of unmatched ground truths. -/
def ugtTexts (L : List String) (tbl : List FRow) (key : List Int) : String × Option String × Option String :=
  (labelText L (key.getD 2 0), textOf (datumMap tbl) (key.getD 0 0), textOf (gtMap tbl) (key.getD 1 0))

/-- The examples of a list of unmatched predictions. -/
def updTexts (L : List String) (tbl : List FRow) (key : List Int) : String × Option String × Option String :=
  (labelText L (key.getD 2 0), textOf (datumMap tbl) (key.getD 0 0), textOf (pdMap tbl) (key.getD 1 0))

/-- The examples of a list of matched pairs. -/
def matchTexts (L : List String) (tbl : List FRow) (key : List Int) : (String × String) × Option String × Option String × Option String :=
  ((labelText L (key.getD 3 0), labelText L (key.getD 4 0)), textOf (datumMap tbl) (key.getD 0 0), textOf (gtMap tbl) (key.getD 1 0),
    textOf (pdMap tbl) (key.getD 2 0))

theorem labelAt_text {i : Nat} (h : i < L.length) : labelAt L (i : Int) = some (labelText L (i : Int)) := by
  unfold labelAt labelText
  rw [if_neg (by omega), Int.toNat_natCast, List.getElem?_eq_getElem h, List.getD_eq_getElem?_getD, List.getElem?_eq_getElem h]
  rfl

theorem lookup_some (col : Row → Int) (uid : FRow → Option String) {r : Row} (hr : r ∈ tbl.map FRow.row) (h0 : 0 ≤ col r) :
    (createMapping tbl col uid).lookup (col r) = some (textOf (createMapping tbl col uid) (col r)) := by
  unfold textOf
  rw [lookup_mapping tbl col uid h0]
  obtain ⟨f, hf, rfl⟩ := List.mem_map.1 hr
  cases hfind : tbl.find? (fun f' => decide (col f'.row = col f.row)) with
  | none =>
    rw [List.find?_eq_none] at hfind
    exact absurd (hfind f hf) (by simp)
  | some f' => rfl

theorem matched_pos (h : TableOk L tbl) {t s : Rat} {r : Row} (hr : r ∈ tbl.map FRow.row)
    (hm : (pairTp (tbl.map FRow.row) t s r || pairMisclf (tbl.map FRow.row) t s r) = true) :
    thresholded (tbl.map FRow.row) t s r = true ∧ 0 ≤ r.gt ∧ 0 ≤ r.pd := by
  have ht : thresholded (tbl.map FRow.row) t s r = true := by
    unfold pairTp pairMisclf at hm
    rw [Bool.or_eq_true, Bool.and_eq_true, Bool.and_eq_true] at hm
    rcases hm with hm | hm <;> exact hm.1
  have hk := thresholded_kept h.owned hr ht
  exact ⟨ht, hk.2.1.1, hk.2.2.1⟩

theorem glAt (h : TableOk L tbl) {r : Row} (hr : r ∈ tbl.map FRow.row) (h0 : 0 ≤ r.gt) : labelAt L r.gl = some (labelText L r.gl) := by
  obtain ⟨f, hf, rfl⟩ := List.mem_map.1 hr
  rcases h.gl f hf with ⟨_, i, hi, hl⟩ | ⟨hn, _⟩
  · rw [hi]
    exact labelAt_text hl
  · omega

theorem plAt (h : TableOk L tbl) {r : Row} (hr : r ∈ tbl.map FRow.row) (h0 : 0 ≤ r.pd) : labelAt L r.pl = some (labelText L r.pl) := by
  obtain ⟨f, hf, rfl⟩ := List.mem_map.1 hr
  rcases h.pl f hf with ⟨_, i, hi, hl⟩ | ⟨hn, _⟩
  · rw [hi]
    exact labelAt_text hl
  · omega

/-- One table adds its examples, and no key is missing. -/
theorem unpack_table (h : TableOk L tbl) (t s : Rat) (m : CmExamples) :
    unpackCm tbl t s L m = some (m.addLists ((ugtRows tbl t s).map (ugtTexts L tbl)) ((updRows tbl t s).map (updTexts L tbl))
      ((matchRows tbl t s).map (matchTexts L tbl))) := by
  have e1 : ((tbl.map FRow.row).filter (fun r => pairTp (tbl.map FRow.row) t s r || pairMisclf (tbl.map FRow.row) t s r)).map
      (fun r => [to32 r.datum, to32 r.gt, to32 r.pd, to32 r.gl, to32 r.pl]) = ((tbl.map FRow.row).filter
        (fun r => pairTp (tbl.map FRow.row) t s r || pairMisclf (tbl.map FRow.row) t s r)).map (fun r => [r.datum, r.gt, r.pd, r.gl, r.pl]) :=
    map32 _ _ _ (fun r hr => by obtain ⟨h1, h2, h3, h4, h5⟩ := ids32 h hr; rw [h1, h2, h3, h4, h5])
  have e2 : ((tbl.map FRow.row).filter (pairFp (tbl.map FRow.row) t s)).map (fun r => [to32 r.datum, to32 r.pd, to32 r.pl])
      = ((tbl.map FRow.row).filter (pairFp (tbl.map FRow.row) t s)).map (fun r => [r.datum, r.pd, r.pl]) :=
    map32 _ _ _ (fun r hr => by obtain ⟨h1, h2, h3, h4, h5⟩ := ids32 h hr; rw [h1, h3, h5])
  have e3 : ((tbl.map FRow.row).filter (pairFn (tbl.map FRow.row) t s)).map (fun r => [to32 r.datum, to32 r.gt, to32 r.gl])
      = ((tbl.map FRow.row).filter (pairFn (tbl.map FRow.row) t s)).map (fun r => [r.datum, r.gt, r.gl]) :=
    map32 _ _ _ (fun r hr => by obtain ⟨h1, h2, h3, h4, h5⟩ := ids32 h hr; rw [h1, h2, h4])
  unfold unpackCm
  dsimp only
  rw [e1, e2, e3]
  show List.foldlM _ m (List.range (max (matchRows tbl t s).length (max (ugtRows tbl t s).length (updRows tbl t s).length))) = _
  have hA : List.Forall₂ (fun key a => labelAt L (key.getD 2 0) = some a.1 ∧ (datumMap tbl).lookup (key.getD 0 0) = some a.2.1 ∧
      (gtMap tbl).lookup (key.getD 1 0) = some a.2.2) (ugtRows tbl t s) ((ugtRows tbl t s).map (ugtTexts L tbl)) := by
    rw [List.forall₂_map_right_iff, List.forall₂_same]
    intro key hkey
    unfold ugtRows at hkey
    rw [mem_uniqueRows, List.mem_map] at hkey
    obtain ⟨r, hr, rfl⟩ := hkey
    rw [List.mem_filter] at hr
    have h0 := ((pairFn_spec h.owned t s hr.1).1 hr.2).2
    exact ⟨glAt h hr.1 h0, lookup_some Row.datum _ hr.1 (h.owned.ids r hr.1).2.2.1, lookup_some Row.gt _ hr.1 h0⟩
  have hB : List.Forall₂ (fun key a => labelAt L (key.getD 2 0) = some a.1 ∧ (datumMap tbl).lookup (key.getD 0 0) = some a.2.1 ∧
      (pdMap tbl).lookup (key.getD 1 0) = some a.2.2) (updRows tbl t s) ((updRows tbl t s).map (updTexts L tbl)) := by
    rw [List.forall₂_map_right_iff, List.forall₂_same]
    intro key hkey
    unfold updRows at hkey
    rw [mem_uniqueRows, List.mem_map] at hkey
    obtain ⟨r, hr, rfl⟩ := hkey
    rw [List.mem_filter] at hr
    have h0 := ((pairFp_spec h.owned t s hr.1).1 hr.2).1.2
    exact ⟨plAt h hr.1 h0, lookup_some Row.datum _ hr.1 (h.owned.ids r hr.1).2.2.1, lookup_some Row.pd _ hr.1 h0⟩
  have hC : List.Forall₂ (fun key a => labelAt L (key.getD 3 0) = some a.1.1 ∧ labelAt L (key.getD 4 0) = some a.1.2 ∧
      (datumMap tbl).lookup (key.getD 0 0) = some a.2.1 ∧ (gtMap tbl).lookup (key.getD 1 0) = some a.2.2.1 ∧
      (pdMap tbl).lookup (key.getD 2 0) = some a.2.2.2) (matchRows tbl t s) ((matchRows tbl t s).map (matchTexts L tbl)) := by
    rw [List.forall₂_map_right_iff, List.forall₂_same]
    intro key hkey
    unfold matchRows at hkey
    rw [mem_uniqueRows, List.mem_map] at hkey
    obtain ⟨r, hr, rfl⟩ := hkey
    rw [List.mem_filter] at hr
    obtain ⟨_, h0, h0'⟩ := matched_pos h hr.1 hr.2
    exact ⟨glAt h hr.1 h0, plAt h hr.1 h0', lookup_some Row.datum _ hr.1 (h.owned.ids r hr.1).2.2.1, lookup_some Row.gt _ hr.1 h0,
      lookup_some Row.pd _ hr.1 h0'⟩
  have hfold := foldlM_range (σ := CmExamples) (fun m idx => do
    let m ← addUgt tbl L (ugtRows tbl t s) m idx
    let m ← addUpd tbl L (updRows tbl t s) m idx
    addMatch tbl L (matchRows tbl t s) m idx)
    (fun n => m.addLists (((ugtRows tbl t s).map (ugtTexts L tbl)).take n) (((updRows tbl t s).map (updTexts L tbl)).take n)
      (((matchRows tbl t s).map (matchTexts L tbl)).take n))
    (by
      intro n
      rw [step_ugt hA]
      show (do let m ← addUpd tbl L (updRows tbl t s) _ n; addMatch tbl L (matchRows tbl t s) m n) = _
      rw [step_upd hB]
      show addMatch tbl L (matchRows tbl t s) _ n = _
      rw [step_match hC])
    (max (matchRows tbl t s).length (max (ugtRows tbl t s).length (updRows tbl t s).length))
  rw [List.take_zero, List.take_zero, List.take_zero, addLists_nil] at hfold
  rw [List.take_of_length_le (by rw [List.length_map]; omega), List.take_of_length_le (by rw [List.length_map]; omega),
    List.take_of_length_le (by rw [List.length_map]; omega)] at hfold
  exact hfold

/-! ## All tables -/

theorem mapM_option_map {α β : Type} (f : α → β) (l : List α) : l.mapM (fun a => some (f a)) = some (l.map f) :=
  mapM_some (fun _ _ => rfl)

/-- All tables add their examples. -/
theorem evalCm_lists {tables : List (List FRow)} (datums : Option Expr) (L : List String)
    (h : ∀ T ∈ tables, TableOk L (readTable datums T)) (ious scores : List Rat) (hi : ious ≠ []) (hs : scores ≠ []) :
    evalCmExamples tables datums L ious scores = some ((ious.flatMap (fun t => scores.map (fun s => (t, s)))).map (fun y =>
      (y, CmExamples.empty.addLists
        ((tables.map (readTable datums)).flatMap (fun T => (ugtRows T y.1 y.2).map (ugtTexts L T)))
        ((tables.map (readTable datums)).flatMap (fun T => (updRows T y.1 y.2).map (updTexts L T)))
        ((tables.map (readTable datums)).flatMap (fun T => (matchRows T y.1 y.2).map (matchTexts L T)))))) := by
  unfold evalCmExamples
  have hne : (ious.isEmpty || scores.isEmpty) = false := by
    simp only [Bool.or_eq_false_iff, List.isEmpty_eq_false_iff]
    exact ⟨hi, hs⟩
  rw [if_neg (by rw [hne]; simp)]
  have hinit : ious.flatMap (fun t => scores.map (fun s => ((t, s), CmExamples.empty)))
      = (ious.flatMap (fun t => scores.map (fun s => (t, s)))).map (fun y => (y, CmExamples.empty)) := by
    rw [List.map_flatMap]
    congr 1
    funext t
    rw [List.map_map]
    rfl
  rw [hinit]
  have hT : ∀ T ∈ tables.map (readTable datums), TableOk L T := by
    intro T hT
    obtain ⟨T', hT', rfl⟩ := List.mem_map.1 hT
    exact h T' hT'
  generalize tables.map (readTable datums) = ts at hT
  generalize ious.flatMap (fun t => scores.map (fun s => (t, s))) = ys
  have : ∀ (ts : List (List FRow)) (m : Rat × Rat → CmExamples), (∀ T ∈ ts, TableOk L T) →
      ts.foldlM (fun ms tbl => if tbl.isEmpty then some ms else ms.mapM (fun x => (unpackCm tbl x.1.1 x.1.2 L x.2).map (fun m => (x.1, m))))
        (ys.map (fun y => (y, m y)))
      = some (ys.map (fun y => (y, (m y).addLists (ts.flatMap (fun T => (ugtRows T y.1 y.2).map (ugtTexts L T)))
        (ts.flatMap (fun T => (updRows T y.1 y.2).map (updTexts L T))) (ts.flatMap (fun T => (matchRows T y.1 y.2).map (matchTexts L T)))))) := by
    intro ts
    induction ts with
    | nil =>
      intro m _
      simp only [List.flatMap_nil, addLists_nil]
      rfl
    | cons T ts ih =>
      intro m hT
      rw [List.foldlM_cons]
      have hstep : (if T.isEmpty = true then some (ys.map (fun y => (y, m y)))
          else (ys.map (fun y => (y, m y))).mapM (fun x => (unpackCm T x.1.1 x.1.2 L x.2).map (fun m => (x.1, m))))
          = some (ys.map (fun y => (y, (m y).addLists ((ugtRows T y.1 y.2).map (ugtTexts L T)) ((updRows T y.1 y.2).map (updTexts L T))
            ((matchRows T y.1 y.2).map (matchTexts L T))))) := by
        split
        · rename_i he
          rw [List.isEmpty_iff] at he
          subst he
          congr 1
          apply List.map_congr_left
          intro y _
          have : ugtRows [] y.1 y.2 = [] ∧ updRows [] y.1 y.2 = [] ∧ matchRows [] y.1 y.2 = [] := ⟨rfl, rfl, rfl⟩
          rw [this.1, this.2.1, this.2.2, List.map_nil, List.map_nil, List.map_nil, addLists_nil]
        · rw [map_mapM]
          apply mapM_some
          intro y _
          dsimp only
          rw [unpack_table (hT T (by simp))]
          rfl
      rw [hstep]
      show List.foldlM _ _ ts = _
      rw [ih _ (fun T' hT' => hT T' (by simp [hT']))]
      congr 1
      apply List.map_congr_left
      intro y _
      rw [List.flatMap_cons, List.flatMap_cons, List.flatMap_cons, addLists_append]
  exact this ts _ hT

/-! ## The loader -/

theorem table_ok {calls : List History} (hH : HistoryOk calls.flatten) (hS : SizesOk (Loader.init.addAll calls)) {T : List FRow}
    (hT : ∀ f ∈ T, f ∈ (Loader.init.addAll calls).rows.flatten) : TableOk (Loader.init.addAll calls).labels T := by
  obtain ⟨_, hlen, hrows⟩ := C34_rows calls
  have hrow : ∀ f ∈ T, ∃ k x, calls.flatten[k]? = some x ∧
      IsRow (Loader.init.addAll calls).labels x.1 x.2 k (gtOffset calls.flatten k) (pdOffset calls.flatten k) f := by
    intro f hf
    obtain ⟨p, hp, hfp⟩ := List.mem_flatten.1 (hT f hf)
    obtain ⟨k, hk, rfl⟩ := List.getElem_of_mem hp
    have hx : calls.flatten[k]? = some (calls.flatten[k]'(by omega)) := List.getElem?_eq_getElem (by omega)
    obtain ⟨payload, h1, h2⟩ := hrows k _ hx
    rw [List.getElem?_eq_getElem hk, Option.some.injEq] at h1
    rw [h1] at hfp
    exact ⟨k, _, hx, (h2 f).1 hfp⟩
  refine ⟨?_, hS.labels, ?_, ?_⟩
  · refine (loader_ok hH hS).2.subset ?_
    intro r hr
    obtain ⟨f, hf, rfl⟩ := List.mem_map.1 hr
    exact List.mem_map_of_mem (hT f hf)
  · intro f hf
    obtain ⟨k, x, hk, h⟩ := hrow f hf
    have hl := isRow_labels calls hk h
    rcases h with ⟨_, _, _, _, rfl⟩ | ⟨_, _, _, _, _, _, _, rfl⟩ | ⟨_, _, _, _, _, _, _, _, _, _, _, _, rfl⟩
    · exact Or.inl ⟨by simp only [gtRow]; omega, _, rfl, List.idxOf_lt_length_of_mem (hl.1 _ rfl)⟩
    · exact Or.inr ⟨by simp [pdRow], rfl⟩
    · exact Or.inl ⟨by simp only [pairRow]; omega, _, rfl, List.idxOf_lt_length_of_mem (hl.1 _ rfl)⟩
  · intro f hf
    obtain ⟨k, x, hk, h⟩ := hrow f hf
    have hl := isRow_labels calls hk h
    rcases h with ⟨_, _, _, _, rfl⟩ | ⟨_, _, _, _, _, _, _, rfl⟩ | ⟨_, _, _, _, _, _, _, _, _, _, _, _, rfl⟩
    · exact Or.inr ⟨by simp [gtRow], rfl⟩
    · exact Or.inl ⟨by simp only [pdRow]; omega, _, rfl, List.idxOf_lt_length_of_mem (hl.2 _ rfl)⟩
    · exact Or.inl ⟨by simp only [pairRow]; omega, _, rfl, List.idxOf_lt_length_of_mem (hl.2 _ rfl)⟩

end Verif.Detection
