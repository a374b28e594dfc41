import Verif.Segmentation.FilterProps
import Verif.Shared.Columns

/-!
# C101 for segmentation: filters on metadata
-/

namespace Verif.Segmentation

open Verif.Shared (Dict column)

/-- The condition `c` on the metadata field `f`. `dict` says which dictionary the opaque metadata of the model stands for. -/
def onField {V : Type} (dict : String → Dict V) (f : String) (c : Option V → Bool) : Expr :=
  fun r => c (column (r.info.map dict) f)

/-- The field in the metadata of an image or mask, which may be missing. -/
def field {V : Type} (dict : String → Dict V) (f : String) (info : Option String) : Option V := info.bind (fun i => (dict i).lookup f)

/-- The field of a mask: its own value, or the value of its image if it has none. -/
def ownField {V : Type} (dict : String → Dict V) (f : String) (s : Seg) (x : Item) : Option V :=
  (field dict f x.info).or (field dict f s.info)

/-- The image with the masks whose own metadata satisfy the conditions. -/
def keeping {V : Type} (dict : String → Dict V) (fg fp : String) (cg cp : Option V → Bool) (s : Seg) : Seg :=
  { s with gts := s.gts.filter (fun x => cg (ownField dict fg s x)), pds := s.pds.filter (fun x => cp (ownField dict fp s x)) }

/-! ## Lemmas -/

theorem column_join {V : Type} (a b : List (Dict V)) (f : String) : column (a ++ b) f = (column b f).or (column a f) := by
  have h : ∀ (l : List (Dict V)) (x : Option V), l.foldl (fun acc d => (d.lookup f).or acc) x = (column l f).or x := by
    intro l
    induction l with
    | nil => intro x; simp [column]
    | cons d l ih =>
      intro x
      rw [List.foldl_cons, ih, show column (d :: l) f = _ from List.foldl_cons .., ih]
      simp [Option.or_assoc]
  rw [show column (a ++ b) f = b.foldl (fun acc d => (d.lookup f).or acc) (column a f) from List.foldl_append, h]

theorem column_info {V : Type} (dict : String → Dict V) (f : String) (o : Option String) : column (o.toList.map dict) f = field dict f o := by
  cases o <;> simp [column, field]

/-- The metadata of a label are those of the mask with the label. -/
theorem infoOf_eq {L : List String} (hL : L.Nodup) {items : List Item} (hn : (items.map Item.label).Nodup) {i : Nat}
    {v : String} (hv : L[i]? = some v) : infoOf L items i = ((items.find? (fun x => x.label == v)).bind Item.info).toList := by
  obtain ⟨hi, e⟩ := List.getElem?_eq_some_iff.1 hv
  have hidx : ∀ x : Item, L.idxOf x.label = i ↔ x.label = v := by
    intro x
    constructor
    · intro h
      have hlt : L.idxOf x.label < L.length := h ▸ hi
      have := List.getElem_idxOf hlt
      rw [← this, ← e]
      congr 1
    · intro h
      rw [h, ← e]
      exact hL.idxOf_getElem i hi
  unfold infoOf
  congr 1
  induction items with
  | nil => rfl
  | cons x xs ih =>
    rw [List.map_cons, List.nodup_cons] at hn
    by_cases hx : x.label = v
    · have hnone : xs.filter (fun y => decide (L.idxOf y.label = i) && y.info.isSome) = [] := by
        rw [List.filter_eq_nil_iff]
        intro y hy
        have : L.idxOf y.label ≠ i := fun h => hn.1 (hx ▸ (hidx y).1 h ▸ List.mem_map_of_mem hy)
        simp [this]
      rw [List.filter_cons, hnone, List.find?_cons]
      have h1 : decide (L.idxOf x.label = i) = true := by simpa using (hidx x).2 hx
      have h2 : (x.label == v) = true := by simpa using hx
      rw [h1, h2, Bool.true_and]
      cases e : x.info <;> simp [e]
    · have h1 : decide (L.idxOf x.label = i) = false := by simpa using fun h => hx ((hidx x).1 h)
      have h2 : (x.label == v) = false := by simpa using hx
      rw [List.filter_cons, List.find?_cons, h1, h2]
      simpa using ih hn.2

theorem find_label {items : List Item} (hn : (items.map Item.label).Nodup) {x : Item} (hx : x ∈ items) :
    items.find? (fun y => y.label == x.label) = some x := by
  induction items with
  | nil => simp at hx
  | cons y ys ih =>
    rw [List.map_cons, List.nodup_cons] at hn
    rw [List.find?_cons]
    rcases List.mem_cons.1 hx with rfl | h
    · simp
    · have : (y.label == x.label) = false := by
        simp only [beq_eq_false_iff_ne]
        exact fun e => hn.1 (e ▸ List.mem_map_of_mem h)
      rw [this]
      exact ih hn.2 h

/-- `filter` looks at the expressions on the stored rows only. -/
theorem filterTables_congr {d g p d' g' p' : Expr} {tables : List (List SRow)}
    (h : ∀ r ∈ tables.flatten, d r = d' r ∧ g r = g' r ∧ p r = p' r) :
    filterTables (some d) (some g) (some p) tables = filterTables (some d') (some g') (some p') tables := by
  unfold filterTables
  apply List.map_congr_left
  intro t ht
  have ht' : ∀ r ∈ t, d r = d' r ∧ g r = g' r ∧ p r = p' r := fun r hr => h r (List.mem_flatten_of_mem ht hr)
  have hd : readTable (some d) t = readTable (some d') t := List.filter_congr (fun r hr => (ht' r hr).1)
  rw [hd]
  have hsub : ∀ r ∈ readTable (some d') t, g r = g' r ∧ p r = p' r := fun r hr => (ht' r (List.mem_filter.1 hr).1).2
  have hg : (readTable (some d') t).filter g = (readTable (some d') t).filter g' := List.filter_congr (fun r hr => (hsub r hr).1)
  have hp : (readTable (some d') t).filter p = (readTable (some d') t).filter p' := List.filter_congr (fun r hr => (hsub r hr).2)
  unfold filterTable validMask
  simp only [hg, hp]

/-- The value of a field for a label of an image. -/
def labelField {V : Type} (dict : String → Dict V) (f : String) (s : Seg) (items : List Item) (v : String) : Option V :=
  (field dict f ((items.find? (fun x => x.label == v)).bind Item.info)).or (field dict f s.info)

theorem field_none {V : Type} {dict : String → Dict V} {f : String} {items : List Item} (h : ∀ x ∈ items, field dict f x.info = none) (v : String) :
    field dict f ((items.find? (fun x => x.label == v)).bind Item.info) = none := by
  rcases e : items.find? (fun x => x.label == v) with _ | x
  · rw [e]; rfl
  · rw [e]; exact h x (List.mem_of_find?_eq_some e)

/-- The values of the metadata columns in the rows of an image. -/
theorem row_columns {V : Type} {s : Seg} (hs : SegOk s) {k : Nat} {L : List String} (hL : L.Nodup) {c : Nat → Nat → Nat} {r : SRow}
    (hr : r ∈ segRows s k L c) (dict : String → Dict V) (f : String) :
    r.datum = (k : Int) ∧
    ((∀ x ∈ s.gts ++ s.pds, field dict f x.info = none) → column (r.info.map dict) f = field dict f s.info) ∧
    ((∀ x ∈ s.pds, field dict f x.info = none) → r.gl ≠ -1 → column (r.info.map dict) f = labelField dict f s s.gts (r.gtLabel.getD "")) ∧
    ((∀ x ∈ s.gts, field dict f x.info = none) → r.pl ≠ -1 → column (r.info.map dict) f = labelField dict f s s.pds (r.pdLabel.getD "")) := by
  have hget : ∀ {i : Nat}, i < L.length → L[i]? = some (L[i]?.getD "") := by
    intro i hi
    rw [List.getElem?_eq_getElem hi]; rfl
  unfold segRows at hr
  rw [List.mem_append, List.mem_flatMap, List.mem_singleton] at hr
  rcases hr with ⟨i, hi, hr⟩ | rfl
  · rw [List.mem_range] at hi
    rw [List.mem_append] at hr
    rcases hr with hr | hr
    · obtain ⟨j, hj, rfl⟩ := List.mem_map.1 hr
      have hj' := List.mem_range.1 (List.mem_filter.1 hj).1
      have e : column ((pairRow s k L c i j).info.map dict) f
          = ((field dict f ((s.pds.find? (fun x => x.label == L[j]?.getD "")).bind Item.info)).or
            ((field dict f ((s.gts.find? (fun x => x.label == L[i]?.getD "")).bind Item.info)).or (field dict f s.info))) := by
        simp only [pairRow]
        rw [infoOf_eq hL hs.gts.labels (hget hi), infoOf_eq hL hs.pds.labels (hget hj'), List.map_append, List.map_append, column_join, column_join,
          column_info, column_info, column_info]
      refine ⟨rfl, fun h => ?_, fun h _ => ?_, fun h _ => ?_⟩
      · rw [e, field_none (fun x hx => h x (List.mem_append_right _ hx)), field_none (fun x hx => h x (List.mem_append_left _ hx))]
        simp
      · rw [e, field_none h]
        simp [labelField, pairRow]
      · rw [e, field_none h]
        simp [labelField, pairRow]
    · simp only [List.mem_cons, List.not_mem_nil, or_false] at hr
      rcases hr with rfl | rfl
      · have e : column ((gtRow s k L c i).info.map dict) f
            = (field dict f ((s.gts.find? (fun x => x.label == L[i]?.getD "")).bind Item.info)).or (field dict f s.info) := by
          simp only [gtRow]
          rw [infoOf_eq hL hs.gts.labels (hget hi), List.map_append, column_join, column_info, column_info]
        refine ⟨rfl, fun h => ?_, fun _ _ => ?_, fun _ h => absurd rfl h⟩
        · rw [e, field_none (fun x hx => h x (List.mem_append_left _ hx))]
          simp
        · rw [e]
          simp [labelField, gtRow]
      · have e : column ((pdRow s k L c i).info.map dict) f
            = ((field dict f ((s.pds.find? (fun x => x.label == L[i]?.getD "")).bind Item.info)).or
              ((field dict f ((s.gts.find? (fun x => x.label == L[i]?.getD "")).bind Item.info)).or (field dict f s.info))) := by
          simp only [pdRow]
          rw [infoOf_eq hL hs.gts.labels (hget hi), infoOf_eq hL hs.pds.labels (hget hi), List.map_append, List.map_append, column_join, column_join,
            column_info, column_info, column_info]
        refine ⟨rfl, fun h => ?_, fun _ h => absurd rfl h, fun h _ => ?_⟩
        · rw [e, field_none (fun x hx => h x (List.mem_append_right _ hx)), field_none (fun x hx => h x (List.mem_append_left _ hx))]
          simp
        · rw [e, field_none h]
          simp [labelField, pdRow]
  · refine ⟨rfl, fun _ => ?_, fun _ h => absurd rfl h, fun _ h => absurd rfl h⟩
    simp only [backgroundRow]
    exact column_info dict f s.info

/-! ## The theorem -/

/-- **C101 (segmentation, partial).** For every history of images with disjoint masks and distinct labels, every division
and order of the rows and conditions on metadata fields for images, ground truths and predictions: if no mask has the
field of the condition on images, no prediction the field of the condition on ground truths and no ground truth the field
of the condition on predictions, then the matrix after the filter is that of the accepted images with the masks whose own
metadata satisfy the conditions, where the metadata of the image stand in for a missing field. Missing: fields that both
sides have, for which it is false (`C101_segmentation_violation`), and several masks of one label
(`C101_repeated_violation`). -/
theorem C101_segmentation_partial {V : Type} (calls : List (List Seg)) (hok : ∀ s ∈ calls.flatten, SegOk s)
    (hsz : (calls.flatten.map Seg.size).sum < 2 ^ 64) {tables : List (List SRow)}
    (hp : tables.flatten.Perm (Loader.init.addAll calls).rows.flatten) (dict : String → Dict V)
    (fd fg fp : String) (cd cg cp : Option V → Bool)
    (hd : ∀ s ∈ calls.flatten, ∀ x ∈ s.gts ++ s.pds, field dict fd x.info = none)
    (hg : ∀ s ∈ calls.flatten, ∀ x ∈ s.pds, field dict fg x.info = none)
    (hq : ∀ s ∈ calls.flatten, ∀ x ∈ s.gts, field dict fp x.info = none)
    {a b : Option String} (ha : ∀ v ∈ a, v ∈ (Loader.init.addAll calls).labels) (hb : ∀ v ∈ b, v ∈ (Loader.init.addAll calls).labels) :
    confusionMatrix (Loader.init.addAll calls).labels.length none
        (filterTables (some (onField dict fd cd)) (some (onField dict fg cg)) (some (onField dict fp cp)) tables)
        (scode (Loader.init.addAll calls).labels a) (scode (Loader.init.addAll calls).labels b)
      = ((calls.flatten.filter (fun s => cd (field dict fd s.info))).map (fun s => pixelsOf (keeping dict fg fp cg cp s) a b)).sum := by
  let D : Nat → Bool := fun k => (calls.flatten[k]?).any (fun s => cd (field dict fd s.info))
  let G : Nat → String → Bool := fun k v => (calls.flatten[k]?).any (fun s => cg (labelField dict fg s s.gts v))
  let P : Nat → String → Bool := fun k v => (calls.flatten[k]?).any (fun s => cp (labelField dict fp s s.pds v))
  let d : Expr := fun r => D r.datum.toNat
  let g : Expr := fun r => if r.gl ≠ -1 then G r.datum.toNat (r.gtLabel.getD "") else onField dict fg cg r
  let p : Expr := fun r => if r.pl ≠ -1 then P r.datum.toNat (r.pdLabel.getD "") else onField dict fp cp r
  have hcongr : filterTables (some (onField dict fd cd)) (some (onField dict fg cg)) (some (onField dict fp cp)) tables
      = filterTables (some d) (some g) (some p) tables := by
    apply filterTables_congr
    intro r hr
    obtain ⟨k, s, L, hk, hL, _, hm⟩ := mem_rows (hp.mem_iff.1 hr)
    have hs := List.mem_of_getElem? hk
    have hLn : L.Nodup := (loaded calls).nodup.sublist hL.sublist
    obtain ⟨ek, h1, _, _⟩ := row_columns (hok s hs) hLn hm dict fd
    obtain ⟨_, _, h2, _⟩ := row_columns (hok s hs) hLn hm dict fg
    obtain ⟨_, _, _, h3⟩ := row_columns (hok s hs) hLn hm dict fp
    have ek' : r.datum.toNat = k := by rw [ek]; rfl
    refine ⟨?_, ?_, ?_⟩
    · simp only [d, D, onField, ek', hk, Option.any_some, h1 (hd s hs)]
    · by_cases hne : r.gl = -1
      · simp [g, hne]
      · simp only [g, ne_eq, hne, not_false_eq_true, if_true, G, ek', hk, Option.any_some, onField, h2 (hg s hs) hne]
    · by_cases hne : r.pl = -1
      · simp [p, hne]
      · simp only [p, ne_eq, hne, not_false_eq_true, if_true, P, ek', hk, Option.any_some, onField, h3 (hq s hs) hne]
  rw [hcongr, C40_meaning calls hok hsz hp (fd := D) (fg := G) (fp := P) (d := d) (g := g) (p := p) (fun r => rfl)
    (fun r h => by simp [g, h]) (fun r h => by simp [p, h]) ha hb]
  have hz : ∀ sk ∈ calls.flatten.zipIdx, calls.flatten[sk.2]? = some sk.1 := by
    intro sk h
    exact List.mem_zipIdx_iff_getElem?.1 h
  have e1 : calls.flatten.zipIdx.filter (fun sk => D sk.2) = calls.flatten.zipIdx.filter (fun sk => cd (field dict fd sk.1.info)) := by
    apply List.filter_congr
    intro sk h
    simp only [D, hz sk h, Option.any_some]
  have e2 : (calls.flatten.zipIdx.filter (fun sk => cd (field dict fd sk.1.info))).map (fun sk => pixelsOf (sk.1.drop (G sk.2) (P sk.2)) a b)
      = (calls.flatten.zipIdx.filter (fun sk => cd (field dict fd sk.1.info))).map (fun sk => pixelsOf (keeping dict fg fp cg cp sk.1) a b) := by
    apply List.map_congr_left
    intro sk h
    have h' := (List.mem_filter.1 h).1
    have hs := hok sk.1 (List.mem_of_getElem? (hz sk h'))
    congr 1
    unfold Seg.drop keeping
    congr 1
    · apply List.filter_congr
      intro x hx
      simp only [G, hz sk h', Option.any_some, labelField, find_label hs.gts.labels hx, Option.bind_some, ownField]
    · apply List.filter_congr
      intro x hx
      simp only [P, hz sk h', Option.any_some, labelField, find_label hs.pds.labels hx, Option.bind_some, ownField]
  rw [e1, e2]
  have e3 : calls.flatten.filter (fun s => cd (field dict fd s.info))
      = (calls.flatten.zipIdx.filter (fun sk => cd (field dict fd sk.1.info))).map Prod.fst := by
    conv_lhs => rw [← List.zipIdx_map_fst 0 calls.flatten, List.filter_map]
    rfl
  rw [e3, List.map_map]
  rfl

/-! ## Witnesses -/

/-- Dictionaries with the field `dark`. -/
def darkDict (s : String) : Dict Bool :=
  if s = "dark" then [("dark", true)] else if s = "light" then [("dark", false)] else []

/-- The condition `pc.field("dark")`; null is not kept. -/
def isDark : Expr := onField darkDict "dark" (fun v => v == some true)

/-- An image of two pixels with one ground truth and one prediction on the first one, with the given metadata. -/
def darkSeg (image gt pd : Option String) : Seg := ⟨"a", 2, [⟨[true, false], "x", gt⟩], [⟨[true, false], "x", pd⟩], image⟩

/-- An entry of the matrix of images after a filter. -/
def darkEntry (d g p : Option Expr) (s : Seg) (i j : Nat) : Nat :=
  confusionMatrix 1 none (filterTables d g p (Loader.init.addAll [[s]]).rows) i j

/-- **C101 (segmentation), violation.** A ground truth that is not dark survives a condition for dark ground truths where
the prediction is dark; a prediction without the field survives a condition for dark predictions where the ground truth is
dark; and of a dark image with a mask that is not dark only a part of the pixels survives a condition for dark images. -/
theorem C101_segmentation_violation :
    (darkEntry none (some isDark) none (darkSeg none (some "light") (some "dark")) 1 1 = 1 ∧
      darkEntry none (some isDark) none (darkSeg none (some "light") none) 1 1 = 0) ∧
    (darkEntry none none (some isDark) (darkSeg none (some "dark") none) 1 1 = 1 ∧
      darkEntry none none (some isDark) (darkSeg none none none) 1 1 = 0) ∧
    (darkEntry (some isDark) none none (darkSeg (some "dark") (some "light") none) 1 1 = 0 ∧
      darkEntry (some isDark) none none (darkSeg (some "dark") (some "light") none) 0 0 = 1) := by decide +kernel

/-- Two ground truth masks with the same label, the first and second pixel. -/
def twiceSeg (first second : Option String) : Seg := ⟨"a", 2, [⟨[true, false], "x", first⟩, ⟨[false, true], "x", second⟩], [], none⟩

/-- **C101 (repeated labels), violation.** Of two ground truth masks with the same label, one dark and one not, both or
none survive a condition for dark ground truths: the metadata of the last mask that has any count for both. (The matrix
has one of the two pixels only, see `C37_repeated_violation`.) -/
theorem C101_repeated_violation :
    darkEntry none (some isDark) none (twiceSeg (some "dark") (some "light")) 1 0 = 0 ∧
    darkEntry none (some isDark) none (twiceSeg (some "light") (some "dark")) 1 0 = 1 ∧
    darkEntry none (some isDark) none (twiceSeg (some "dark") none) 1 0 = 1 := by decide +kernel

/-- The hypotheses are met by images with metadata on one side. -/
example : (∀ s ∈ [[darkSeg none (some "dark") none], [darkSeg none (some "light") none]].flatten, SegOk s) ∧
    (∀ s ∈ [[darkSeg none (some "dark") none], [darkSeg none (some "light") none]].flatten, ∀ x ∈ s.pds, field darkDict "dark" x.info = none) ∧
    (([[darkSeg none (some "dark") none], [darkSeg none (some "light") none]].flatten.filter (fun _ => true)).map
      (fun s => pixelsOf (keeping darkDict "dark" "none" (fun v => v == some true) (fun _ => true) s) (some "x") (some "x"))).sum = 1 := by
  refine ⟨?_, ?_, by decide +kernel⟩
  · intro s hs
    simp only [List.flatten_cons, List.flatten_nil, List.append_nil, List.cons_append, List.nil_append, List.mem_cons, List.not_mem_nil, or_false] at hs
    have hdis : Disjoint [[true, false]] := by simp [Disjoint]
    rcases hs with rfl | rfl <;>
      exact ⟨⟨by simp [darkSeg], by simpa [darkSeg] using hdis, by simp [darkSeg]⟩, ⟨by simp [darkSeg], by simpa [darkSeg] using hdis, by simp [darkSeg]⟩⟩
  · intro s hs x hx
    simp only [List.flatten_cons, List.flatten_nil, List.append_nil, List.cons_append, List.nil_append, List.mem_cons, List.not_mem_nil, or_false] at hs
    rcases hs with rfl | rfl <;> simp [darkSeg] at hx <;> subst hx <;> rfl

end Verif.Segmentation
