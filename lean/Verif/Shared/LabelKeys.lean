import Verif.Shared.Labels
import Mathlib.Data.List.Perm.Basic
import Mathlib.Data.List.Nodup
import Mathlib.Data.List.Range

/-!
# The label dictionary as a list of numbered labels

Facts about `index_to_label` (`shared.py` 98-131) used by the functions that unpack arrays into metrics.
-/

namespace Verif.Shared

/-- The items of `index_to_label` with natural numbers as keys; keys are never negative (`C50_extract`). -/
def numbered (d : List (Int × String)) : List (Nat × String) := d.map (fun x => (x.1.toNat, x.2))

theorem labels_perm {d : List (Int × String)} {L : List String} (hnd : (d.map Prod.fst).Nodup)
    (h : ∀ (i : Int) (s : String), d.lookup i = some s ↔ 0 ≤ i ∧ L[i.toNat]? = some s) :
    (d.map (fun x => x.1.toNat)).Perm (List.range L.length) ∧ d.length = L.length := by
  have hmem : ∀ i : Int, i ∈ d.map Prod.fst ↔ 0 ≤ i ∧ i.toNat < L.length := by
    intro i
    constructor
    · intro hi
      have : d.lookup i ≠ none := by
        intro hn
        rw [List.lookup_eq_none_iff] at hn
        obtain ⟨x, hx, rfl⟩ := List.mem_map.1 hi
        simpa using hn x hx
      obtain ⟨s, hs⟩ := Option.ne_none_iff_exists'.1 this
      obtain ⟨h0, h1⟩ := (h i s).1 hs
      exact ⟨h0, (List.getElem?_eq_some_iff.1 h1).1⟩
    · rintro ⟨h0, h1⟩
      have := (h i L[i.toNat]).2 ⟨h0, List.getElem?_eq_getElem h1⟩
      by_contra hn
      have h2 : d.lookup i = none := by
        rw [List.lookup_eq_none_iff]
        intro p hp
        have : p.1 ≠ i := fun e => hn (e ▸ List.mem_map_of_mem (f := Prod.fst) hp)
        simpa using this.symm
      rw [h2] at this
      cases this
  have hnd' : (d.map (fun x => x.1.toNat)).Nodup := by
    have : d.map (fun x => x.1.toNat) = (d.map Prod.fst).map Int.toNat := by rw [List.map_map]; rfl
    rw [this]
    apply List.Nodup.map_on _ hnd
    intro x hx y hy hxy
    have := (hmem x).1 hx
    have := (hmem y).1 hy
    omega
  have hp : (d.map (fun x => x.1.toNat)).Perm (List.range L.length) := by
    rw [List.perm_ext_iff_of_nodup hnd' List.nodup_range]
    intro a
    rw [List.mem_range]
    constructor
    · intro ha
      obtain ⟨x, hx, rfl⟩ := List.mem_map.1 ha
      exact ((hmem x.1).1 (List.mem_map_of_mem (f := Prod.fst) hx)).2
    · intro ha
      have := (hmem (a : Int)).2 ⟨by omega, by omega⟩
      obtain ⟨x, hx, he⟩ := List.mem_map.1 this
      exact List.mem_map.2 ⟨x, hx, by rw [he]; simp⟩
  exact ⟨hp, by simpa using hp.length_eq⟩

theorem numbered_keys {d : List (Int × String)} {L : List String} (hnd : (d.map Prod.fst).Nodup)
    (h : ∀ (i : Int) (s : String), d.lookup i = some s ↔ 0 ≤ i ∧ L[i.toNat]? = some s) :
    ((numbered d).map Prod.fst).Perm (List.range L.length) := by
  have := (labels_perm hnd h).1
  unfold numbered
  rw [List.map_map]
  exact this

theorem numbered_length {d : List (Int × String)} {L : List String} (hnd : (d.map Prod.fst).Nodup)
    (h : ∀ (i : Int) (s : String), d.lookup i = some s ↔ 0 ≤ i ∧ L[i.toNat]? = some s) : (numbered d).length = L.length := by
  unfold numbered
  rw [List.length_map]
  exact (labels_perm hnd h).2

/-- Every numbered label is the label with this number. -/
theorem numbered_label {d : List (Int × String)} {L : List String} (hnd : (d.map Prod.fst).Nodup)
    (h : ∀ (i : Int) (s : String), d.lookup i = some s ↔ 0 ≤ i ∧ L[i.toNat]? = some s) {lb : Nat × String} (hlb : lb ∈ numbered d) :
    L[lb.1]? = some lb.2 := by
  unfold numbered at hlb
  obtain ⟨x, hx, rfl⟩ := List.mem_map.1 hlb
  apply ((h x.1 x.2).1 _).2
  clear h hlb
  induction d with
  | nil => simp at hx
  | cons a d ih =>
    rw [List.map_cons, List.nodup_cons] at hnd
    rcases List.mem_cons.1 hx with rfl | hx'
    · simp [List.lookup]
    · have hne : x.1 ≠ a.1 := fun e => hnd.1 (e ▸ List.mem_map_of_mem (f := Prod.fst) hx')
      obtain ⟨a1, a2⟩ := a
      rw [List.lookup_cons]
      rw [show (x.1 == a1) = false from by simpa using hne]
      exact ih hnd.2 hx'

/-- The labels of the dictionary are exactly the labels, each once. -/
theorem numbered_names {d : List (Int × String)} {L : List String} (hnd : (d.map Prod.fst).Nodup)
    (h : ∀ (i : Int) (s : String), d.lookup i = some s ↔ 0 ≤ i ∧ L[i.toNat]? = some s) : ((numbered d).map Prod.snd).Perm L := by
  have h1 : (numbered d).map Prod.snd = ((numbered d).map Prod.fst).map (fun i => L.getD i "") := by
    rw [List.map_map]
    apply List.map_congr_left
    intro lb hlb
    rw [Function.comp_apply, List.getD_eq_getElem?_getD, numbered_label hnd h hlb]
    rfl
  have h2 : L = (List.range L.length).map (fun i => L.getD i "") := by
    apply List.ext_getElem
    · simp
    · intro i h1 h2
      simp [h1]
  rw [h1]
  conv => rhs; rw [h2]
  exact (numbered_keys hnd h).map _

end Verif.Shared
