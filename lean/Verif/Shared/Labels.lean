import Mathlib.Data.List.Sort
import Mathlib.Data.List.Dedup

/-!
# `extract_labels` (`classification/shared.py` 98-131, identical text in `object_detection/shared.py`
124-157 and `semantic_segmentation/shared.py` 82-115)

Dictionaries are association lists in insertion order.
-/

namespace Verif.Shared

/-- The four columns that are read (`shared.py` 106-113): ground truth id and label, prediction id and
label. A null label cell is the empty string here; labels of id -1 are dropped anyway. -/
abbrev LabelRow := (Int × String) × (Int × String)

/-- `d[k] = v` on a dictionary. -/
def dictSet : List (Int × String) → Int → String → List (Int × String)
  | [], k, v => [(k, v)]
  | (a, b) :: d, k, v => if a = k then (a, v) :: d else (a, b) :: dictSet d k v

/-- `d.update(e)`. -/
def dictUpdate (d e : List (Int × String)) : List (Int × String) :=
  e.foldl (fun d x => dictSet d x.1 x.2) d

/-- `np.unique(ids, return_index=True)` with `take(indices)` and `dict(zip(..))` (`shared.py` 117-120):
the distinct ids in ascending order, each with the label of its first occurrence. -/
def uniqueLabels (col : List (Int × String)) : List (Int × String) :=
  ((col.map Prod.fst).dedup.insertionSort (· ≤ ·)).map (fun i => (i, (col.lookup i).getD ""))

/-- `d.pop(-1, None)` (`shared.py` 121, 129). -/
def dropPlaceholder (d : List (Int × String)) : List (Int × String) :=
  d.filter (fun x => decide (x.1 ≠ -1))

/-- `extract_labels` without override (`shared.py` 105-131) over the tables of the reader. -/
def extractLabels (tables : List (List LabelRow)) : List (Int × String) :=
  tables.foldl (fun d tbl =>
    dictUpdate (dictUpdate d (dropPlaceholder (uniqueLabels (tbl.map Prod.fst))))
      (dropPlaceholder (uniqueLabels (tbl.map Prod.snd)))) []

/-- `extract_labels` (`shared.py` 98-131): an override is returned as it is. -/
def labelsOf (tables : List (List LabelRow)) : Option (List (Int × String)) → List (Int × String)
  | some d => d
  | none => extractLabels tables

/-! ## Lemmas -/

theorem dictSet_keys (d : List (Int × String)) (k : Int) (v : String) :
    (dictSet d k v).map Prod.fst = if k ∈ d.map Prod.fst then d.map Prod.fst else d.map Prod.fst ++ [k] := by
  induction d with
  | nil => simp [dictSet]
  | cons x d ih =>
    obtain ⟨a, b⟩ := x
    unfold dictSet
    by_cases h : a = k
    · simp [h]
    · rw [if_neg h, List.map_cons, ih]
      by_cases h' : k ∈ d.map Prod.fst
      · rw [if_pos h', if_pos (by simp at h' ⊢; exact Or.inr h')]
        rfl
      · rw [if_neg h', if_neg (by simp [Ne.symm h] at h' ⊢; exact h')]
        rfl

theorem dictSet_nodup {d : List (Int × String)} (h : (d.map Prod.fst).Nodup) (k : Int) (v : String) :
    ((dictSet d k v).map Prod.fst).Nodup := by
  rw [dictSet_keys]
  split
  · exact h
  · rename_i h'
    rw [List.nodup_append]
    refine ⟨h, by simp, ?_⟩
    intro a ha b hb
    rw [List.mem_singleton.1 hb]
    intro e
    exact h' (e ▸ ha)

theorem dictSet_lookup (d : List (Int × String)) (k : Int) (v : String) (i : Int) :
    (dictSet d k v).lookup i = if i = k then some v else d.lookup i := by
  induction d with
  | nil =>
    by_cases h : i = k
    · simp [dictSet, h]
    · simp [dictSet, List.lookup_cons, beq_eq_false_iff_ne.2 h, h]
  | cons x d ih =>
    obtain ⟨a, b⟩ := x
    unfold dictSet
    by_cases h : a = k
    · subst h
      rw [if_pos rfl, List.lookup_cons, List.lookup_cons]
      by_cases h' : i = a
      · simp [h']
      · simp [beq_eq_false_iff_ne.2 h', h']
    · rw [if_neg h, List.lookup_cons, List.lookup_cons, ih]
      by_cases h' : i = a
      · subst h'; simp [h]
      · have : (i == a) = false := by simp [h']
        rw [this]

/-- The dictionary `d` agrees with `f` and has exactly the keys `K`. -/
structure Agrees (f : Int → String) (K : Int → Prop) (d : List (Int × String)) : Prop where
  nodup : (d.map Prod.fst).Nodup
  lookup : ∀ i s, d.lookup i = some s ↔ K i ∧ s = f i

theorem Agrees.update {f : Int → String} {e : List (Int × String)} (he : ∀ x ∈ e, x.2 = f x.1) :
    ∀ {K : Int → Prop} {d : List (Int × String)}, Agrees f K d →
      Agrees f (fun i => K i ∨ i ∈ e.map Prod.fst) (dictUpdate d e) := by
  induction e with
  | nil =>
    intro K d h
    refine ⟨h.nodup, ?_⟩
    intro i s
    simpa [dictUpdate] using h.lookup i s
  | cons x e ih =>
    intro K d h
    have h1 : Agrees f (fun i => K i ∨ i = x.1) (dictSet d x.1 x.2) := by
      refine ⟨dictSet_nodup h.nodup _ _, ?_⟩
      intro i s
      rw [dictSet_lookup]
      split
      · rename_i hi
        subst hi
        rw [he x (by simp)]
        simp [eq_comm]
      · rename_i hi
        rw [h.lookup]
        simp [hi]
    have h2 := ih (fun y hy => he y (by simp [hy])) h1
    refine ⟨h2.nodup, ?_⟩
    intro i s
    have := h2.lookup i s
    unfold dictUpdate at this ⊢
    rw [List.foldl_cons, this, List.map_cons, List.mem_cons, or_assoc]

theorem uniqueLabels_agree {f : Int → String} {col : List (Int × String)}
    (h : ∀ x ∈ col, x.1 ≠ -1 → x.2 = f x.1) :
    (∀ x ∈ dropPlaceholder (uniqueLabels col), x.2 = f x.1) ∧
    ∀ i, i ∈ (dropPlaceholder (uniqueLabels col)).map Prod.fst ↔ i ≠ -1 ∧ i ∈ col.map Prod.fst := by
  have hk : ∀ x, x ∈ dropPlaceholder (uniqueLabels col) ↔
      x.1 ≠ -1 ∧ x.1 ∈ col.map Prod.fst ∧ x.2 = (col.lookup x.1).getD "" := by
    rintro ⟨i, s⟩
    unfold dropPlaceholder uniqueLabels
    simp only [List.mem_filter, List.mem_map, decide_eq_true_eq, List.mem_insertionSort, List.mem_dedup]
    constructor
    · rintro ⟨⟨j, ⟨y, hy, rfl⟩, he⟩, h2⟩
      simp only [Prod.mk.injEq] at he
      obtain ⟨rfl, rfl⟩ := he
      exact ⟨h2, ⟨y, hy, rfl⟩, rfl⟩
    · rintro ⟨h1, ⟨y, hy, h2⟩, h3⟩
      exact ⟨⟨i, ⟨y, hy, h2⟩, by rw [h3]⟩, h1⟩
  constructor
  · intro x hx
    obtain ⟨h1, h2, h3⟩ := (hk x).1 hx
    have : (col.lookup x.1).isSome := by
      rw [List.lookup_isSome_iff]
      obtain ⟨y, hy, he⟩ := List.mem_map.1 h2
      exact ⟨y, hy, by simp [he]⟩
    obtain ⟨s, hs⟩ := Option.isSome_iff_exists.1 this
    rw [h3, hs, Option.getD_some]
    have hm : (x.1, s) ∈ col := by
      clear * - hs
      induction col with
      | nil => simp at hs
      | cons y col ih =>
        obtain ⟨a, b⟩ := y
        rw [List.lookup_cons] at hs
        split at hs
        · rename_i he
          simp only [Option.some.injEq] at hs
          have := eq_of_beq he
          rw [this, hs]; simp
        · exact List.mem_cons_of_mem _ (ih hs)
    exact h (x.1, s) hm h1
  · intro i
    constructor
    · intro hi
      obtain ⟨x, hx, rfl⟩ := List.mem_map.1 hi
      obtain ⟨h1, h2, _⟩ := (hk x).1 hx
      exact ⟨h1, h2⟩
    · rintro ⟨h1, h2⟩
      exact List.mem_map.2 ⟨(i, (col.lookup i).getD ""), (hk _).2 ⟨h1, h2, rfl⟩, rfl⟩

/-- **C50 (general form).** If the labels stored with each id other than -1 agree with a mapping `f`,
the extracted dictionary maps exactly the ids other than -1 that occur in some row to their labels, for
every way of cutting the rows into tables. -/
theorem C50_extract {f : Int → String} (tables : List (List LabelRow))
    (h : ∀ r ∈ tables.flatten, (r.1.1 ≠ -1 → r.1.2 = f r.1.1) ∧ (r.2.1 ≠ -1 → r.2.2 = f r.2.1)) :
    ((extractLabels tables).map Prod.fst).Nodup ∧
    ∀ i s, (extractLabels tables).lookup i = some s ↔
      (i ≠ -1 ∧ ∃ r ∈ tables.flatten, r.1.1 = i ∨ r.2.1 = i) ∧ s = f i := by
  suffices H : ∀ (tables : List (List LabelRow)) (K : Int → Prop) (d : List (Int × String)),
      (∀ r ∈ tables.flatten, (r.1.1 ≠ -1 → r.1.2 = f r.1.1) ∧ (r.2.1 ≠ -1 → r.2.2 = f r.2.1)) →
      Agrees f K d →
      Agrees f (fun i => K i ∨ (i ≠ -1 ∧ ∃ r ∈ tables.flatten, r.1.1 = i ∨ r.2.1 = i))
        (tables.foldl (fun d tbl =>
          dictUpdate (dictUpdate d (dropPlaceholder (uniqueLabels (tbl.map Prod.fst))))
            (dropPlaceholder (uniqueLabels (tbl.map Prod.snd)))) d) by
    have := H tables (fun _ => False) [] h ⟨by simp, by simp⟩
    refine ⟨this.nodup, ?_⟩
    intro i s
    have := this.lookup i s
    simpa [extractLabels] using this
  intro tables
  induction tables with
  | nil =>
    intro K d _ hd
    refine ⟨hd.nodup, ?_⟩
    intro i s
    simpa using hd.lookup i s
  | cons t ts ih =>
    intro K d hr hd
    rw [List.foldl_cons]
    have hg := uniqueLabels_agree (f := f) (col := t.map Prod.fst) (by
      intro x hx
      obtain ⟨r, hr', rfl⟩ := List.mem_map.1 hx
      exact (hr r (List.mem_flatten.2 ⟨t, by simp, hr'⟩)).1)
    have hp := uniqueLabels_agree (f := f) (col := t.map Prod.snd) (by
      intro x hx
      obtain ⟨r, hr', rfl⟩ := List.mem_map.1 hx
      exact (hr r (List.mem_flatten.2 ⟨t, by simp, hr'⟩)).2)
    have h1 := (hd.update hg.1).update hp.1
    have h2 := ih _ _ (fun r hr' => hr r (by
      obtain ⟨b, hb, h⟩ := List.mem_flatten.1 hr'
      exact List.mem_flatten.2 ⟨b, by simp [hb], h⟩)) h1
    refine ⟨h2.nodup, ?_⟩
    intro i s
    rw [h2.lookup, hg.2, hp.2]
    have : ((K i ∨ i ≠ -1 ∧ i ∈ (t.map Prod.fst).map Prod.fst) ∨ i ≠ -1 ∧ i ∈ (t.map Prod.snd).map Prod.fst)
        ∨ (i ≠ -1 ∧ ∃ r ∈ ts.flatten, r.1.1 = i ∨ r.2.1 = i)
        ↔ K i ∨ (i ≠ -1 ∧ ∃ r ∈ (t :: ts).flatten, r.1.1 = i ∨ r.2.1 = i) := by
      simp only [List.map_map, List.mem_map, Function.comp, List.flatten_cons, List.mem_append]
      constructor
      · rintro (((h | ⟨h, r, hr, rfl⟩) | ⟨h, r, hr, rfl⟩) | ⟨h, r, hr, he⟩)
        · exact Or.inl h
        · exact Or.inr ⟨h, r, Or.inl hr, Or.inl rfl⟩
        · exact Or.inr ⟨h, r, Or.inl hr, Or.inr rfl⟩
        · exact Or.inr ⟨h, r, Or.inr hr, he⟩
      · rintro (h | ⟨h, r, hr | hr, he⟩)
        · exact Or.inl (Or.inl (Or.inl h))
        · rcases he with rfl | rfl
          · exact Or.inl (Or.inl (Or.inr ⟨h, r, hr, rfl⟩))
          · exact Or.inl (Or.inr ⟨h, r, hr, rfl⟩)
        · exact Or.inr ⟨h, r, hr, he⟩
    rw [this]

/-- The placeholder id never is a key. -/
theorem C50_no_placeholder {f : Int → String} (tables : List (List LabelRow))
    (h : ∀ r ∈ tables.flatten, (r.1.1 ≠ -1 → r.1.2 = f r.1.1) ∧ (r.2.1 ≠ -1 → r.2.2 = f r.2.1)) :
    (extractLabels tables).lookup (-1) = none := by
  by_contra hcon
  obtain ⟨s, hs⟩ := Option.ne_none_iff_exists'.1 hcon
  exact ((C50_extract tables h).2 (-1) s).1 hs |>.1.1 rfl

example : extractLabels [[((1, "b"), (0, "a")), ((1, "b"), (-1, ""))], [((-1, ""), (2, "c"))]]
    = [(1, "b"), (0, "a"), (2, "c")] := by decide +kernel

end Verif.Shared
