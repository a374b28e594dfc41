import Verif.Detection.FilterProps
import Verif.Shared.Columns

/-!
# C101 for detection: filters on metadata

A row of a pair carries the metadata of the detection, of the ground truth and of the prediction in the same columns.
-/

namespace Verif.Detection

open Verif.Shared (Dict column)
open Verif.Cache (sortBy)

/-- The condition `c` on the metadata field `f`, for example `pc.field(f) == value`. `dict` says which dictionary the
opaque metadata of the model stands for. -/
def onField {V : Type} (dict : String → Dict V) (f : String) (c : Option V → Bool) : Expr :=
  fun r => c (column (r.info.map dict) f)

/-- The field of an annotation: its own value, or the value of its detection if it has none. -/
def ownField {V : Type} (dict : String → Dict V) (f : String) (d : Det) (a : Ann) : Option V :=
  ((dict a.info).lookup f).or ((dict d.info).lookup f)

/-- The ground truths of the filtered cache. -/
theorem filtered_gt (d g p : Option Expr) (tables : List (List FRow)) (i : Int) (hi : 0 ≤ i) :
    (∃ r ∈ (filterTables d g p tables).flatten, r.row.gt = i) ↔ ∃ r ∈ tables.flatten, r.row.gt = i ∧ Holds d r ∧ Holds g r := by
  constructor
  · rintro ⟨r, hr, e⟩
    obtain ⟨t', ht', hr⟩ := List.mem_flatten.1 hr
    obtain ⟨t, ht, rfl⟩ := List.mem_map.1 ht'
    obtain ⟨q, hq, ⟨_, e2, _⟩, h3, h4⟩ := (C33_groundtruths d g p t r.row.datum i r.row.gl hi).1 ⟨r, hr, rfl, e, rfl⟩
    exact ⟨q, List.mem_flatten_of_mem ht hq, e2, h3, h4⟩
  · rintro ⟨r, hr, e, h3, h4⟩
    obtain ⟨t, ht, hr⟩ := List.mem_flatten.1 hr
    obtain ⟨q, hq, _, e2, _⟩ := (C33_groundtruths d g p t r.row.datum i r.row.gl hi).2 ⟨r, hr, ⟨rfl, e, rfl⟩, h3, h4⟩
    exact ⟨q, List.mem_flatten_of_mem (List.mem_map.2 ⟨t, ht, rfl⟩) hq, e2⟩

/-- The predictions of the filtered cache. -/
theorem filtered_pd (d g p : Option Expr) (tables : List (List FRow)) (i : Int) (hi : 0 ≤ i) :
    (∃ r ∈ (filterTables d g p tables).flatten, r.row.pd = i) ↔ ∃ r ∈ tables.flatten, r.row.pd = i ∧ Holds d r ∧ Holds p r := by
  constructor
  · rintro ⟨r, hr, e⟩
    obtain ⟨t', ht', hr⟩ := List.mem_flatten.1 hr
    obtain ⟨t, ht, rfl⟩ := List.mem_map.1 ht'
    obtain ⟨⟨q, hq, ⟨_, e2, _⟩, h3, h4⟩, _⟩ :=
      (C33_predictions d g p t r.row.datum i r.row.pl hi r.row.score).1 ⟨r, hr, ⟨rfl, e, rfl⟩, rfl⟩
    exact ⟨q, List.mem_flatten_of_mem ht hq, e2, h3, h4⟩
  · rintro ⟨r, hr, e, h3, h4⟩
    obtain ⟨t, ht, hr⟩ := List.mem_flatten.1 hr
    obtain ⟨q, hq, ⟨_, e2, _⟩, _⟩ := (C33_predictions d g p t r.row.datum i r.row.pl hi r.row.score).2
      ⟨⟨r, hr, ⟨rfl, e, rfl⟩, h3, h4⟩, r, hr, h3, ⟨rfl, e, rfl⟩, rfl⟩
    exact ⟨q, List.mem_flatten_of_mem (List.mem_map.2 ⟨t, ht, rfl⟩) hq, e2⟩

/-- The rows of a history. -/
theorem stored_row {calls : List History} {tables : List (List FRow)} (hs : Stored (Loader.init.addAll calls).rows tables) (r : FRow) :
    r ∈ tables.flatten ↔ ∃ (k : Nat) (x : Det × (Nat → Nat → Rat)), calls.flatten[k]? = some x ∧
      IsRow (Loader.init.addAll calls).labels x.1 x.2 k (gtOffset calls.flatten k) (pdOffset calls.flatten k) r := by
  obtain ⟨_, hlen, hrows⟩ := C34_rows calls
  rw [stored_mem_iff hs, List.mem_flatten]
  constructor
  · rintro ⟨t, ht, hr⟩
    obtain ⟨k, hk, e⟩ := List.getElem_of_mem ht
    have hk' : k < calls.flatten.length := hlen ▸ hk
    obtain ⟨payload, hp, hiff⟩ := hrows k _ (List.getElem?_eq_getElem hk')
    rw [List.getElem?_eq_getElem hk, Option.some.injEq, e] at hp
    exact ⟨k, _, List.getElem?_eq_getElem hk', (hiff r).1 (hp ▸ hr)⟩
  · rintro ⟨k, x, hk, hr⟩
    obtain ⟨payload, hp, hiff⟩ := hrows k x hk
    exact ⟨payload, List.mem_of_getElem? hp, (hiff r).2 hr⟩

/-- **C101 (ground truths, partial).** For every history of detections that the constructors accept, every layout of the
cache and every other condition on predictions: a ground truth survives a condition on a metadata field if and only if the
condition holds for its own metadata, where the metadata of the detection stand in for a missing field. Missing: ground
truths that overlap a prediction with the same field, for which it is false (`C101_groundtruths_violation`). -/
theorem C101_groundtruths_partial {V : Type} {calls : List History} (hok : ∀ x ∈ calls.flatten, DetOk x.1) {tables : List (List FRow)}
    (hs : Stored (Loader.init.addAll calls).rows tables) (dict : String → Dict V) (f : String) (c : Option V → Bool) (p : Option Expr)
    {k g : Nat} {x : Det × (Nat → Nat → Rat)} {a : Ann} (hk : calls.flatten[k]? = some x) (hg : x.1.gts[g]? = some a)
    (hno : ∀ (q : Nat) b, x.1.pds[q]? = some b → EPSILON ≤ x.2 q g → (dict b.info).lookup f = none) :
    (∃ r ∈ (filterTables none (some (onField dict f c)) p tables).flatten, r.row.gt = ((gtOffset calls.flatten k + g : Nat) : Int)) ↔
      c (ownField dict f x.1 a) = true := by
  rw [filtered_gt _ _ _ _ _ (Int.natCast_nonneg _)]
  have hval : ∀ r ∈ tables.flatten, r.row.gt = ((gtOffset calls.flatten k + g : Nat) : Int) → onField dict f c r = c (ownField dict f x.1 a) := by
    intro r hr e
    obtain ⟨k', x', hk', hrow⟩ := (stored_row hs r).1 hr
    have hid : ∀ g' a', x'.1.gts[g']? = some a' → r.row.gt = ((gtOffset calls.flatten k' + g' : Nat) : Int) → k = k' ∧ g = g' := by
      intro g' a' hg' e'
      refine (C34_ids calls.flatten hk hk').1 (List.getElem?_eq_some_iff.1 hg).1 (List.getElem?_eq_some_iff.1 hg').1 ?_
      rw [e] at e'
      exact_mod_cast e'
    rcases hrow with ⟨g', a', hg', _, rfl⟩ | ⟨q, b, _, _, _, _, _, rfl⟩ | ⟨g', a', q, b, _, _, _, hg', hq, hov, _, _, rfl⟩
    · obtain ⟨rfl, rfl⟩ := hid g' a' hg' rfl
      obtain rfl : x = x' := Option.some.inj (hk.symm.trans hk')
      obtain rfl : a = a' := Option.some.inj (hg.symm.trans hg')
      simp [onField, ownField, column, gtRow]
    · exfalso
      simp only [pdRow] at e
      omega
    · obtain ⟨rfl, rfl⟩ := hid g' a' hg' rfl
      obtain rfl : x = x' := Option.some.inj (hk.symm.trans hk')
      obtain rfl : a = a' := Option.some.inj (hg.symm.trans hg')
      simp [onField, ownField, column, pairRow, hno q b hq hov]
  constructor
  · rintro ⟨r, hr, e, _, h⟩
    rw [← hval r hr e]
    exact h _ rfl
  · intro h
    have hd := hok x (List.mem_of_getElem? hk)
    obtain ⟨r, hrow, _, e, _⟩ := C34_groundtruths (Loader.init.addAll calls).labels x.1 x.2 k (gtOffset calls.flatten k) (pdOffset calls.flatten k)
      hd.valid (fun a ha => (hd.pds a ha).1) hg (hd.gts a (List.mem_of_getElem? hg))
    have hr := (stored_row hs r).2 ⟨k, x, hk, hrow⟩
    refine ⟨r, hr, e, fun f hf => by simp at hf, fun f' hf => ?_⟩
    rw [← Option.some.inj hf, hval r hr e]
    exact h

/-- **C101 (predictions, partial).** The same for predictions, provided that the prediction has the field itself or
overlaps no ground truth that has it. Missing: predictions that take the field from a ground truth
(`C101_predictions_violation`). -/
theorem C101_predictions_partial {V : Type} {calls : List History} (hok : ∀ x ∈ calls.flatten, DetOk x.1) {tables : List (List FRow)}
    (hs : Stored (Loader.init.addAll calls).rows tables) (dict : String → Dict V) (f : String) (c : Option V → Bool) (g : Option Expr)
    {k p : Nat} {x : Det × (Nat → Nat → Rat)} {a : Ann} (hk : calls.flatten[k]? = some x) (hp : x.1.pds[p]? = some a)
    (hno : (dict a.info).lookup f ≠ none ∨ ∀ (q : Nat) b, x.1.gts[q]? = some b → EPSILON ≤ x.2 p q → (dict b.info).lookup f = none) :
    (∃ r ∈ (filterTables none g (some (onField dict f c)) tables).flatten, r.row.pd = ((pdOffset calls.flatten k + p : Nat) : Int)) ↔
      c (ownField dict f x.1 a) = true := by
  rw [filtered_pd _ _ _ _ _ (Int.natCast_nonneg _)]
  have hval : ∀ r ∈ tables.flatten, r.row.pd = ((pdOffset calls.flatten k + p : Nat) : Int) → onField dict f c r = c (ownField dict f x.1 a) := by
    intro r hr e
    obtain ⟨k', x', hk', hrow⟩ := (stored_row hs r).1 hr
    have hid : ∀ p' a', x'.1.pds[p']? = some a' → r.row.pd = ((pdOffset calls.flatten k' + p' : Nat) : Int) → k = k' ∧ p = p' := by
      intro p' a' hp' e'
      refine (C34_ids calls.flatten hk hk').2 (List.getElem?_eq_some_iff.1 hp).1 (List.getElem?_eq_some_iff.1 hp').1 ?_
      rw [e] at e'
      exact_mod_cast e'
    rcases hrow with ⟨g', a', hg', _, rfl⟩ | ⟨q, b, _, _, hq, _, _, rfl⟩ | ⟨g', a', q, b, _, _, _, hg', hq, hov, _, _, rfl⟩
    · exfalso
      simp only [gtRow] at e
      omega
    · obtain ⟨rfl, rfl⟩ := hid q b hq rfl
      obtain rfl : x = x' := Option.some.inj (hk.symm.trans hk')
      obtain rfl : a = b := Option.some.inj (hp.symm.trans hq)
      simp [onField, ownField, column, pdRow]
    · obtain ⟨rfl, rfl⟩ := hid q b hq rfl
      obtain rfl : x = x' := Option.some.inj (hk.symm.trans hk')
      obtain rfl : a = b := Option.some.inj (hp.symm.trans hq)
      rcases hno with h | h
      · obtain ⟨v, hv⟩ := Option.ne_none_iff_exists'.1 h
        simp [onField, ownField, column, pairRow, hv]
      · simp [onField, ownField, column, pairRow, h g' a' hg' hov]
  constructor
  · rintro ⟨r, hr, e, _, h⟩
    rw [← hval r hr e]
    exact h _ rfl
  · intro h
    have hd := hok x (List.mem_of_getElem? hk)
    have ha := hd.pds a (List.mem_of_getElem? hp)
    obtain ⟨v, vs, hv⟩ := List.exists_cons_of_ne_nil ha.1
    have hlen := ha.2
    rw [hv] at hlen
    obtain ⟨s, ss, hsc⟩ : ∃ s ss, a.scores = s :: ss := by
      rcases e : a.scores with _ | ⟨s, ss⟩
      · rw [e] at hlen; simp at hlen
      · exact ⟨s, ss, rfl⟩
    obtain ⟨r, hrow, _, e, _⟩ := C34_predictions (Loader.init.addAll calls).labels x.1 x.2 k (gtOffset calls.flatten k) (pdOffset calls.flatten k)
      hd.gts hp (label := v) (score := s) (by rw [hv, hsc]; simp)
    have hr := (stored_row hs r).2 ⟨k, x, hk, hrow⟩
    refine ⟨r, hr, e, fun f hf => by simp at hf, fun f' hf => ?_⟩
    rw [← Option.some.inj hf, hval r hr e]
    exact h

/-- **C101 (datums, partial).** If no annotation has the field, a condition on it keeps exactly the detections whose own
metadata satisfy it: the filtered cache holds the rows of those detections, so that its metrics are theirs (C54, C60).
Missing: fields that annotations have as well (`C101_datums_violation`). -/
theorem C101_datums_partial {V : Type} {calls : List History} {tables tables' : List (List FRow)}
    (hs : Stored (Loader.init.addAll calls).rows tables) (dict : String → Dict V) (f : String) (c : Option V → Bool)
    (hno : ∀ x ∈ calls.flatten, ∀ a ∈ x.1.gts ++ x.1.pds, (dict a.info).lookup f = none)
    (h : Stored (filterTables (some (onField dict f c)) none none tables) tables') :
    Holding calls (fun k => (calls.flatten[k]?).any (fun x => c ((dict x.1.info).lookup f))) (rowsIn tables') := by
  refine C33_datums hs (onField dict f c) _ ?_ h
  intro k x r hk hrow
  rw [hk, Option.any_some]
  have hn := hno x (List.mem_of_getElem? hk)
  rcases hrow with ⟨g', a', hg', _, rfl⟩ | ⟨q, b, _, _, hq, _, _, rfl⟩ | ⟨g', a', q, b, _, _, _, hg', hq, hov, _, _, rfl⟩
  · have := hn a' (List.mem_append_left _ (List.mem_of_getElem? hg'))
    simp [onField, column, gtRow, this]
  · have := hn b (List.mem_append_right _ (List.mem_of_getElem? hq))
    simp [onField, column, pdRow, this]
  · have h1 := hn a' (List.mem_append_left _ (List.mem_of_getElem? hg'))
    have h2 := hn b (List.mem_append_right _ (List.mem_of_getElem? hq))
    simp [onField, column, pairRow, h1, h2]

/-! ## Witnesses -/

/-- Dictionaries with the field `dark`. -/
def darkDict (s : String) : Dict Bool :=
  if s = "dark" then [("dark", true)] else if s = "light" then [("dark", false)] else []

/-- The condition `pc.field("dark")`; null is not kept. -/
def isDark : Expr := onField darkDict "dark" (fun v => v == some true)

/-- A detection with one ground truth and one prediction that overlap, with the given metadata. -/
def darkCalls (datum gt pd : String) : List History :=
  [[(⟨"d", [⟨"g", ["cat"], [], gt⟩], [⟨"p", ["cat"], [1 / 2], pd⟩], datum⟩, fun _ _ => 7 / 10)]]

/-- The rows of such a detection after a filter. -/
def darkRows (d g p : Option Expr) (datum gt pd : String) : List Row :=
  (filterTables d g p (Loader.init.addAll (darkCalls datum gt pd)).rows).flatten.map FRow.row

/-- **C101 (ground truths), violation.** A ground truth that is dark is removed by a condition that asks for dark ground
truths when the overlapping prediction is not dark, and one that is not dark is kept when the prediction is: the metadata
of the prediction replace those of the ground truth. -/
theorem C101_groundtruths_violation :
    (darkRows none (some isDark) none "" "dark" "light").map Row.gt = [-1] ∧
    (darkRows none (some isDark) none "" "light" "dark").map Row.gt = [0] ∧
    (darkRows none (some isDark) none "" "dark" "").map Row.gt = [0] := by decide +kernel

/-- **C101 (predictions), violation.** A prediction without the field is kept when the overlapping ground truth has it. -/
theorem C101_predictions_violation :
    (darkRows none none (some isDark) "" "dark" "").map Row.pd = [0] ∧
    (darkRows none none (some isDark) "" "" "").map Row.pd = [-1] := by decide +kernel

/-- **C101 (datums), violation.** A dark detection is removed when its annotations are not dark. -/
theorem C101_datums_violation :
    darkRows (some isDark) none none "dark" "light" "" = [] ∧ (darkRows (some isDark) none none "dark" "" "").length = 1 := by decide +kernel

/-- The hypotheses are met: a ground truth with its own metadata, a prediction without. -/
example : (∀ x ∈ (darkCalls "" "dark" "").flatten, DetOk x.1) ∧
    Stored (Loader.init.addAll (darkCalls "" "dark" "")).rows [sortBy (fun f : FRow => rankKey f.row) (Loader.init.addAll (darkCalls "" "dark" "")).rows.flatten] ∧
    (∃ x a, (darkCalls "" "dark" "").flatten[0]? = some x ∧ x.1.gts[0]? = some a ∧ ownField darkDict "dark" x.1 a = some true ∧
      ∀ (q : Nat) b, x.1.pds[q]? = some b → EPSILON ≤ x.2 q 0 → (darkDict b.info).lookup "dark" = none) := by
  refine ⟨?_, stored_mem _ _, _, _, rfl, rfl, by decide +kernel, ?_⟩
  · intro x hx
    simp only [darkCalls, List.flatten_cons, List.flatten_nil, List.append_nil, List.mem_singleton] at hx
    subst hx
    exact ⟨by simp, by simp⟩
  · intro q b hb _
    have := List.mem_of_getElem? hb
    simp only [List.mem_singleton] at this
    subst this
    decide +kernel

/-- A prediction that has the field itself. -/
example : ∃ x a, (darkCalls "" "light" "dark").flatten[0]? = some x ∧ x.1.pds[0]? = some a ∧ (darkDict a.info).lookup "dark" ≠ none :=
  ⟨_, _, rfl, rfl, by decide +kernel⟩

/-- Two detections of which only the datums have the field. -/
example : ∀ x ∈ (darkCalls "dark" "" "" ++ darkCalls "light" "" "").flatten, ∀ a ∈ x.1.gts ++ x.1.pds, (darkDict a.info).lookup "dark" = none := by
  intro x hx
  simp only [darkCalls, List.flatten_cons, List.flatten_nil, List.append_nil, List.cons_append, List.nil_append, List.mem_cons, List.not_mem_nil,
    or_false] at hx
  rcases hx with rfl | rfl <;> intro a ha <;> simp at ha <;> rcases ha with rfl | rfl <;> decide +kernel

end Verif.Detection
