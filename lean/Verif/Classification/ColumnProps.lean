import Verif.Classification.FilteredProps
import Verif.Shared.Columns

/-!
# C101 for classification: filters on metadata
-/

namespace Verif.Classification

open Verif.Shared (Dict column)

/-- The condition `c` on the metadata field `f`. `dict` says which dictionary the opaque metadata of the model stands for. -/
def onField {V : Type} (dict : String → Dict V) (f : String) (c : Option V → Bool) : Expr :=
  fun r => c (column [dict r.info] f)

/-- **C101 (classification).** For every history, every division and order of the rows and every condition on a metadata
field: given for datums, for ground truths or for predictions, the condition keeps exactly the rows of the classifications
whose metadata satisfy it. -/
theorem C101_classification {V : Type} (calls : List (List Classif)) {tables : List (List Row)}
    (hp : tables.flatten.Perm (Loader.init.addAll calls).rows.flatten) (dict : String → Dict V) (f : String) (c : Option V → Bool) :
    let kept := tables.flatten.filter (fun r => ((history calls)[r.datum.toNat]?).any (fun x => c ((dict x.info).lookup f)))
    (filterTables (some (onField dict f c)) none none tables).flatten = kept ∧
    (filterTables none (some (onField dict f c)) none tables).flatten = kept ∧
    (filterTables none none (some (onField dict f c)) tables).flatten = kept := by
  intro kept
  have hrow : ∀ r ∈ tables.flatten, onField dict f c r = ((history calls)[r.datum.toNat]?).any (fun x => c ((dict x.info).lookup f)) := by
    intro r hr
    have hr' := hp.mem_iff.1 hr
    rw [rows_reach calls] at hr'
    obtain ⟨b, hb, hr'⟩ := List.mem_flatten.1 hr'
    obtain ⟨⟨x, k⟩, hx, rfl⟩ := List.mem_map.1 hb
    obtain ⟨i, p, s, _, _, rfl⟩ := mem_rowsOf.1 hr'
    have hk := List.mem_zipIdx_iff_getElem?.1 hx
    have : (rowOf (Loader.init.addAll calls).labels k x i p s).datum.toNat = k := by simp [rowOf]
    rw [this, hk]
    simp [onField, column, rowOf]
  have hdat : ∀ r ∈ tables.flatten, ∀ q ∈ tables.flatten, r.datum = q.datum → onField dict f c r = onField dict f c q := by
    intro r hr q hq e
    rw [hrow r hr, hrow q hq, e]
  have hside : ∀ t ∈ tables, ∀ (g : Row → Int), t.filter (fun r => sideMask (some (onField dict f c)) g t r) = t.filter (onField dict f c) := by
    intro t ht g
    apply List.filter_congr
    intro r hr
    rw [Bool.eq_iff_iff]
    simp only [sideMask, List.any_eq_true, decide_eq_true_eq, unique, List.mem_dedup, List.mem_map, List.mem_filter]
    constructor
    · rintro ⟨_, ⟨q, ⟨hq, hc⟩, rfl⟩, e⟩
      rw [hdat r (List.mem_flatten_of_mem ht hr) q (List.mem_flatten_of_mem ht hq) (Prod.mk.inj e).1.symm]
      exact hc
    · intro h
      exact ⟨_, ⟨r, ⟨hr, h⟩, rfl⟩, rfl⟩
  have hkept : (tables.map (fun t => t.filter (onField dict f c))).flatten = kept := by
    rw [← List.filter_flatten]
    exact List.filter_congr hrow
  refine ⟨?_, ?_, ?_⟩
  · rw [← hkept]
    unfold filterTables filterTable readTable
    congr 1
    apply List.map_congr_left
    intro t _
    simp [sideMask]
  · rw [← hkept]
    unfold filterTables filterTable readTable
    congr 1
    apply List.map_congr_left
    intro t ht
    rw [← hside t ht Row.gt]
    simp [sideMask]
  · rw [← hkept]
    unfold filterTables filterTable readTable
    congr 1
    apply List.map_congr_left
    intro t ht
    rw [← hside t ht Row.pd]
    simp [sideMask]

/-- Two classifications of which one is dark: its two rows are kept. -/
example :
    let calls : List (List Classif) := [[⟨"d0", "cat", ["cat", "dog"], [1 / 2, 1 / 3], "dark"⟩], [⟨"d1", "dog", ["cat"], [1], "light"⟩]]
    let dict : String → Dict Bool := fun s => if s = "dark" then [("dark", true)] else [("dark", false)]
    (filterTables none (some (onField dict "dark" (fun v => v == some true))) none (Loader.init.addAll calls).rows).flatten.map Row.uid = ["d0", "d0"] := by
  decide +kernel

end Verif.Classification
