import Verif.Detection.ComposeProps
import Verif.Shared.Rounding

/-!
# C96: ids as double precision numbers

`np.column_stack` (`object_detection/evaluator.py` 351 and 660, `object_detection/computation.py` 314, `cache/ephemeral.py` 82 and 117, `cache/persistent.py`
219 and 254) puts the
integer id columns and the float columns of a table into one array of `float64`, in which ids are compared; `filter` converts them back with
`astype(np.int64)`. The other files compare the integers; here the conversions are written down and shown not to matter.
-/

namespace Verif.Detection

open Verif.Shared

/-- An integer in a `float64` array (`computation.py` 314-316). -/
def asFloat (n : Int) : Rat := fl n

/-- `astype(np.int64)` of a `float64` (`evaluator.py` 354-355, 396-397): the fraction is cut off. Overflow is not modelled. -/
def asInt (x : Rat) : Int := if 0 ≤ x then ⌊x⌋ else ⌈x⌉

/-- The row after `column_stack` and `astype` (`evaluator.py` 342-355, 393-402). -/
def FRow.converted (f : FRow) : FRow :=
  { f with row := { f.row with datum := asInt (asFloat f.row.datum), gt := asInt (asFloat f.row.gt), pd := asInt (asFloat f.row.pd),
                               gl := asInt (asFloat f.row.gl), pl := asInt (asFloat f.row.pl) } }

theorem asFloat_eq {n : Int} (h : |n| ≤ 2 ^ 53) : asFloat n = n := fl_double (double_int h)

theorem asInt_int (n : Int) : asInt n = n := by
  unfold asInt
  split
  · exact Int.floor_intCast n
  · exact Int.ceil_intCast n

/-- **C96 (comparisons).** Up to 2^53 ids are equal, or in order, as doubles exactly if they are as integers, and the way back is exact. -/
theorem C96_compare {a b : Int} (ha : |a| ≤ 2 ^ 53) (hb : |b| ≤ 2 ^ 53) :
    (asFloat a = asFloat b ↔ a = b) ∧ (asFloat a ≤ asFloat b ↔ a ≤ b) ∧ asInt (asFloat a) = a := by
  rw [asFloat_eq ha, asFloat_eq hb]
  exact ⟨Int.cast_inj, Int.cast_le, asInt_int a⟩

theorem offset_bound (f : Det × (Nat → Nat → Rat) → Nat) (H : History) {k : Nat} {x : Det × (Nat → Nat → Rat)} (hk : H[k]? = some x) :
    ((H.take k).map f).sum + f x ≤ (H.map f).sum := by
  obtain ⟨h, rfl⟩ := List.getElem?_eq_some_iff.1 hk
  calc ((H.take k).map f).sum + f H[k] = ((H.take (k + 1)).map f).sum := by
        rw [List.take_succ_eq_append_getElem h, List.map_append, List.sum_append]
        simp
    _ ≤ ((H.take (k + 1)).map f).sum + ((H.drop (k + 1)).map f).sum := Nat.le_add_right _ _
    _ = (H.map f).sum := by rw [← List.sum_append, ← List.map_append, List.take_append_drop]

theorem small {n N : Nat} (h : n ≤ N) (hN : N ≤ 2 ^ 53) : asInt (asFloat (n : Int)) = n := by
  have : |(n : Int)| ≤ 2 ^ 53 := by
    rw [abs_of_nonneg (by omega)]
    exact_mod_cast le_trans h hN
  exact (C96_compare this this).2.2

theorem small_neg : asInt (asFloat (-1)) = -1 := (C96_compare (a := -1) (b := -1) (by norm_num) (by norm_num)).2.2

/-- **C96 (loader).** As long as there are at most 2^53 images, ground truths, predictions and labels, every row that a loader writes is
unchanged by the conversion to doubles and back, in every layout of the cache. -/
theorem C96_detection (calls : List History) (h1 : calls.flatten.length ≤ 2 ^ 53)
    (h2 : (calls.flatten.map (fun x => x.1.gts.length)).sum ≤ 2 ^ 53) (h3 : (calls.flatten.map (fun x => x.1.pds.length)).sum ≤ 2 ^ 53)
    (h4 : (Loader.init.addAll calls).labels.length ≤ 2 ^ 53) {tables : List (List FRow)}
    (hp : tables.flatten.Perm (Loader.init.addAll calls).rows.flatten) : tables.map (fun t => t.map FRow.converted) = tables := by
  have hall : ∀ r ∈ (Loader.init.addAll calls).rows.flatten, r.converted = r := by
    intro r hr
    obtain ⟨k, x, hk, hrow⟩ := loader_row hr
    have hkl : k ≤ calls.flatten.length := (List.getElem?_eq_some_iff.1 hk).1.le
    have hg := offset_bound (fun x => x.1.gts.length) calls.flatten hk
    have hq := offset_bound (fun x => x.1.pds.length) calls.flatten hk
    have hl : ∀ v, asInt (asFloat ((Loader.init.addAll calls).labels.idxOf v : Int)) = (Loader.init.addAll calls).labels.idxOf v :=
      fun v => small List.idxOf_le_length h4
    have hgt : ∀ (g : Nat) a, x.1.gts[g]? = some a →
        asInt (asFloat ((gtOffset calls.flatten k + g : Nat) : Int)) = ((gtOffset calls.flatten k + g : Nat) : Int) := by
      intro g a hga
      refine small (N := (calls.flatten.map (fun x => x.1.gts.length)).sum) ?_ h2
      have := (List.getElem?_eq_some_iff.1 hga).1
      unfold gtOffset
      omega
    have hpd : ∀ (p : Nat) a, x.1.pds[p]? = some a →
        asInt (asFloat ((pdOffset calls.flatten k + p : Nat) : Int)) = ((pdOffset calls.flatten k + p : Nat) : Int) := by
      intro p a hpa
      refine small (N := (calls.flatten.map (fun x => x.1.pds.length)).sum) ?_ h3
      have := (List.getElem?_eq_some_iff.1 hpa).1
      unfold pdOffset
      omega
    have hd := small hkl h1
    rcases hrow with ⟨g, a, hga, _, rfl⟩ | ⟨p, a, label, score, hpa, _, _, rfl⟩ | ⟨g, ga, p, pa, gl, label, score, hga, hpa, _, _, _, rfl⟩
    · simp only [FRow.converted, gtRow, hd, hgt g a hga, hl, small_neg]
    · simp only [FRow.converted, pdRow, hd, hpd p a hpa, hl, small_neg]
    · simp only [FRow.converted, pairRow, hd, hgt g ga hga, hpd p pa hpa, hl]
  rw [List.map_congr_left (g := id), List.map_id]
  intro t ht
  rw [List.map_congr_left (g := id), List.map_id, id]
  intro r hr
  exact hall r (hp.mem_iff.1 (List.mem_flatten.2 ⟨t, ht, hr⟩))

/-- **C96 (sharp).** 2^53 + 1 and 2^53 are the same double. -/
theorem C96_sharp : asFloat (2 ^ 53 + 1) = asFloat (2 ^ 53) ∧ asInt (asFloat (2 ^ 53 + 1)) ≠ 2 ^ 53 + 1 := by
  decide +kernel

example : sampleCalls.flatten.length ≤ 2 ^ 53 ∧ (sampleCalls.flatten.map (fun x => x.1.gts.length)).sum ≤ 2 ^ 53 ∧
    (sampleCalls.flatten.map (fun x => x.1.pds.length)).sum ≤ 2 ^ 53 ∧ (Loader.init.addAll sampleCalls).labels.length ≤ 2 ^ 53 ∧
    (Loader.init.addAll sampleCalls).rows.flatten ≠ [] := by decide +kernel

end Verif.Detection
