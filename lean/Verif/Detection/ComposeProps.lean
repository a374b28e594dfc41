import Verif.Detection.FilterProps

/-!
# C94 for detection: filters compose

A condition on ground truths is meant to look at ground truths only: its value is the same in all rows of a ground truth, and does not
depend on what is known about the prediction in the row. For such conditions filtering works row by row.
-/

namespace Verif.Detection

open Verif.Classification (unique)

/-- Both conditions. -/
def bothOf : Option Expr → Option Expr → Option Expr
  | none, e => e
  | some e, none => some e
  | some e, some f => some (fun r => e r && f r)

/-- The value of an optional condition. -/
def valueOf (e : Option Expr) (r : FRow) : Bool :=
  match e with
  | none => true
  | some e => e r

/-- A condition on datums: the columns of the annotations do not matter. -/
def AboutDatums (e : Option Expr) (rows : List FRow) : Prop := ∀ r ∈ rows, ∀ vg vp, valueOf e (clear vg vp r) = valueOf e r

/-- A condition on ground truths: the same in all rows of a ground truth, and the columns of the prediction do not matter. -/
structure AboutGts (e : Option Expr) (rows : List FRow) : Prop where
  same : ∀ r ∈ rows, ∀ r' ∈ rows, 0 ≤ r.row.gt → gtCols r = gtCols r' → valueOf e r = valueOf e r'
  side : ∀ r ∈ rows, 0 ≤ r.row.gt → ∀ vp, valueOf e (clear true vp r) = valueOf e r

/-- A condition on predictions. -/
structure AboutPds (e : Option Expr) (rows : List FRow) : Prop where
  same : ∀ r ∈ rows, ∀ r' ∈ rows, 0 ≤ r.row.pd → pdCols r = pdCols r' → valueOf e r = valueOf e r'
  side : ∀ r ∈ rows, 0 ≤ r.row.pd → ∀ vg, valueOf e (clear vg true r) = valueOf e r

/-! ## Filtering row by row -/

/-- What becomes of one row. -/
def stepRow (g p : Option Expr) (r : FRow) : Option FRow :=
  let vg := decide (0 ≤ r.row.gt) && valueOf g r
  let vp := decide (0 ≤ r.row.pd) && valueOf p r
  if vg || vp then some (clear vg vp r) else none

theorem valueOf_both (e f : Option Expr) (r : FRow) : valueOf (bothOf e f) r = (valueOf e r && valueOf f r) := by
  cases e <;> cases f <;> simp [bothOf, valueOf]

theorem holds_value (e : Option Expr) (r : FRow) : Holds e r ↔ valueOf e r = true := by
  cases e <;> simp [Holds, valueOf]

theorem readTable_value (e : Option Expr) (tbl : List FRow) : readTable e tbl = tbl.filter (valueOf e) := by
  cases e with
  | none => exact (List.filter_eq_self.2 (fun _ _ => rfl)).symm
  | some e => rfl

/-- A cleared side may be marked as present or not. -/
theorem clear_absent {r : FRow} (h : RowForm r.row) (vg vp : Bool) :
    clear vg vp r = clear (decide (0 ≤ r.row.gt) && vg) (decide (0 ≤ r.row.pd) && vp) r := by
  obtain ⟨⟨k, i, j, gl, pl, iou, s⟩, a, b, c, d, e, f⟩ := r
  obtain ⟨h1, h2, _⟩ := h
  dsimp only at h1 h2
  by_cases hi : 0 ≤ i
  · by_cases hj : 0 ≤ j
    · simp [hi, hj]
    · obtain ⟨rfl, rfl, rfl, rfl⟩ := h2 (by omega)
      cases vg <;> cases vp <;> simp [clear, hi]
  · obtain ⟨rfl, rfl, rfl⟩ := h1 (by omega)
    by_cases hj : 0 ≤ j
    · cases vg <;> cases vp <;> simp [clear, hj]
    · obtain ⟨rfl, rfl, rfl, _⟩ := h2 (by omega)
      cases vg <;> cases vp <;> simp [clear]

theorem validMask_gt {e : Option Expr} {tbl : List FRow} (h : AboutGts e tbl) {r : FRow} (hr : r ∈ tbl) (h0 : 0 ≤ r.row.gt) :
    validMask e gtCols tbl r = valueOf e r := by
  rw [Bool.eq_iff_iff, validMask_iff hr]
  constructor
  · rintro ⟨r', hr', he, hf⟩
    rw [h.same r hr r' hr' h0 hf.symm]
    exact (holds_value e r').1 he
  · exact fun he => ⟨r, hr, (holds_value e r).2 he, rfl⟩

theorem validMask_pd {e : Option Expr} {tbl : List FRow} (h : AboutPds e tbl) {r : FRow} (hr : r ∈ tbl) (h0 : 0 ≤ r.row.pd) :
    validMask e pdCols tbl r = valueOf e r := by
  rw [Bool.eq_iff_iff, validMask_iff hr]
  constructor
  · rintro ⟨r', hr', he, hf⟩
    rw [h.same r hr r' hr' h0 hf.symm]
    exact (holds_value e r').1 he
  · exact fun he => ⟨r, hr, (holds_value e r).2 he, rfl⟩

theorem filter_map_eq {α β : Type} (q : α → Bool) (f : α → β) (s : α → Option β) (l : List α)
    (h : ∀ a ∈ l, s a = if q a then some (f a) else none) : (l.filter q).map f = l.filterMap s := by
  induction l with
  | nil => rfl
  | cons a l ih =>
    have ih := ih (fun b hb => h b (List.mem_cons_of_mem _ hb))
    rw [List.filter_cons, List.filterMap_cons, h a List.mem_cons_self]
    cases q a
    · simpa using ih
    · simpa using ih

theorem filterTable_rows {g p : Option Expr} {tbl : List FRow} (hf : ∀ r ∈ tbl, RowForm r.row) (hg : AboutGts g tbl) (hp : AboutPds p tbl) :
    filterTable g p tbl = tbl.filterMap (stepRow g p) := by
  unfold filterTable
  apply filter_map_eq
  intro r hr
  have habs : ∀ vg vp : Bool, clear (vg && (vg || vp)) (vp && (vg || vp)) r = clear vg vp r := by
    intro vg vp
    cases vg <;> cases vp <;> rfl
  have eg : (decide (0 ≤ r.row.gt) && validMask g gtCols tbl r) = (decide (0 ≤ r.row.gt) && valueOf g r) := by
    by_cases h0 : 0 ≤ r.row.gt
    · rw [validMask_gt hg hr h0]
    · simp [h0]
  have ep : (decide (0 ≤ r.row.pd) && validMask p pdCols tbl r) = (decide (0 ≤ r.row.pd) && valueOf p r) := by
    by_cases h0 : 0 ≤ r.row.pd
    · rw [validMask_pd hp hr h0]
    · simp [h0]
  rw [habs]
  unfold stepRow
  dsimp only
  rw [← eg, ← ep]
  generalize validMask g gtCols tbl r = vg
  generalize validMask p pdCols tbl r = vp
  rw [← clear_absent (hf r hr)]
  congr 1
  rw [eq_iff_iff]
  cases vg <;> cases vp <;> simp [clear]

/-- The second step on the outcome of the first. -/
theorem stepRow_twice {d2 g1 p1 g2 p2 : Option Expr} {r : FRow}
    (hd : ∀ vg vp, valueOf d2 (clear vg vp r) = valueOf d2 r)
    (hg : 0 ≤ r.row.gt → ∀ vp, valueOf g2 (clear true vp r) = valueOf g2 r) (hp : 0 ≤ r.row.pd → ∀ vg, valueOf p2 (clear vg true r) = valueOf p2 r) :
    (stepRow g1 p1 r).bind (fun x => if valueOf d2 x then stepRow g2 p2 x else none) =
      if valueOf d2 r then stepRow (bothOf g1 g2) (bothOf p1 p2) r else none := by
  unfold stepRow
  dsimp only
  rw [valueOf_both, valueOf_both]
  have hcc : ∀ a b a' b' : Bool, clear a b (clear a' b' r) = clear (a && a') (b && b') r := by
    intro a b a' b'
    cases a <;> cases b <;> cases a' <;> cases b' <;> simp [clear]
  have hgt : ∀ a b : Bool, (clear a b r).row.gt = if a then r.row.gt else -1 := fun _ _ => rfl
  have hpd : ∀ a b : Bool, (clear a b r).row.pd = if b then r.row.pd else -1 := fun _ _ => rfl
  cases vd : valueOf d2 r
  · simp [hd, vd]
  · by_cases h0 : 0 ≤ r.row.gt <;> by_cases h1 : 0 ≤ r.row.pd
    · have hg := hg h0
      have hp := hp h1
      cases v1 : valueOf g1 r <;> cases v2 : valueOf p1 r <;> cases v3 : valueOf g2 r <;> cases v4 : valueOf p2 r <;>
        simp [h0, h1, hd, vd, hgt, hpd, hg, hp, v3, v4, hcc]
    · have hg := hg h0
      cases v1 : valueOf g1 r <;> cases v3 : valueOf g2 r <;> simp [h0, h1, hd, vd, hgt, hpd, hg, v3, hcc]
    · have hp := hp h1
      cases v2 : valueOf p1 r <;> cases v4 : valueOf p2 r <;> simp [h0, h1, hd, vd, hgt, hpd, hp, v4, hcc]
    · simp [h0, h1]

/-! ## C94 -/

theorem clear_form {r : FRow} (h : RowForm r.row) {vg vp : Bool} (hk : (vg = true ∧ 0 ≤ r.row.gt) ∨ (vp = true ∧ 0 ≤ r.row.pd)) :
    RowForm (clear vg vp r).row := by
  obtain ⟨f1, f2, f3⟩ := h
  cases vg <;> cases vp <;> simp [clear] at hk ⊢
  · exact ⟨by simp, f2 |> fun h => by simp; omega, by simp; omega⟩
  · exact ⟨by simp; omega, by simp, by simp; omega⟩
  · exact ⟨f1, f2, f3⟩

/-- The outcome of a step: the row with one or both sides, a side that is left is as before. -/
theorem stepRow_some {g p : Option Expr} {r x : FRow} (h : stepRow g p r = some x) :
    ∃ vg vp, x = clear vg vp r ∧ ((vg = true ∧ 0 ≤ r.row.gt) ∨ (vp = true ∧ 0 ≤ r.row.pd)) := by
  unfold stepRow at h
  dsimp only at h
  split at h
  · next hv =>
    refine ⟨_, _, (Option.some.inj h).symm, ?_⟩
    rw [Bool.or_eq_true, Bool.and_eq_true, Bool.and_eq_true, decide_eq_true_eq, decide_eq_true_eq] at hv
    rw [Bool.and_eq_true, Bool.and_eq_true, decide_eq_true_eq, decide_eq_true_eq]
    tauto
  · cases h

theorem AboutGts.after {e g p : Option Expr} {rows : List FRow} (h : AboutGts e rows) : AboutGts e (rows.filterMap (stepRow g p)) := by
  have key : ∀ x ∈ rows.filterMap (stepRow g p), 0 ≤ x.row.gt → ∃ r ∈ rows, ∃ vp, x = clear true vp r ∧ 0 ≤ r.row.gt := by
    intro x hx h0
    obtain ⟨r, hr, hs⟩ := List.mem_filterMap.1 hx
    obtain ⟨vg, vp, rfl, _⟩ := stepRow_some hs
    cases vg
    · exact absurd h0 (by simp [clear])
    · exact ⟨r, hr, vp, rfl, h0⟩
  constructor
  · intro x hx y hy h0 he
    have h0' : 0 ≤ y.row.gt := by
      have : x.row.gt = y.row.gt := congrArg (fun z => z.2.1) he
      omega
    obtain ⟨r, hr, vp, rfl, hr0⟩ := key x hx h0
    obtain ⟨r', hr', vp', rfl, hr0'⟩ := key y hy h0'
    rw [h.side r hr hr0, h.side r' hr' hr0']
    exact h.same r hr r' hr' hr0 he
  · intro x hx h0 vp'
    obtain ⟨r, hr, vp, rfl, hr0⟩ := key x hx h0
    have : clear true vp' (clear true vp r) = clear true (vp' && vp) r := by cases vp <;> cases vp' <;> simp [clear]
    rw [this, h.side r hr hr0, h.side r hr hr0]

theorem AboutPds.after {e g p : Option Expr} {rows : List FRow} (h : AboutPds e rows) : AboutPds e (rows.filterMap (stepRow g p)) := by
  have key : ∀ x ∈ rows.filterMap (stepRow g p), 0 ≤ x.row.pd → ∃ r ∈ rows, ∃ vg, x = clear vg true r ∧ 0 ≤ r.row.pd := by
    intro x hx h0
    obtain ⟨r, hr, hs⟩ := List.mem_filterMap.1 hx
    obtain ⟨vg, vp, rfl, _⟩ := stepRow_some hs
    cases vp
    · exact absurd h0 (by simp [clear])
    · exact ⟨r, hr, vg, rfl, h0⟩
  constructor
  · intro x hx y hy h0 he
    have h0' : 0 ≤ y.row.pd := by
      have : x.row.pd = y.row.pd := congrArg (fun z => z.2.1) he
      omega
    obtain ⟨r, hr, vp, rfl, hr0⟩ := key x hx h0
    obtain ⟨r', hr', vp', rfl, hr0'⟩ := key y hy h0'
    rw [h.side r hr hr0, h.side r' hr' hr0']
    exact h.same r hr r' hr' hr0 he
  · intro x hx h0 vp'
    obtain ⟨r, hr, vp, rfl, hr0⟩ := key x hx h0
    have : clear vp' true (clear vp true r) = clear (vp' && vp) true r := by cases vp <;> cases vp' <;> simp [clear]
    rw [this, h.side r hr hr0, h.side r hr hr0]

theorem AboutGts.sub {e : Option Expr} {a b : List FRow} (h : AboutGts e b) (hs : ∀ r ∈ a, r ∈ b) : AboutGts e a :=
  ⟨fun r hr r' hr' => h.same r (hs r hr) r' (hs r' hr'), fun r hr => h.side r (hs r hr)⟩

theorem AboutPds.sub {e : Option Expr} {a b : List FRow} (h : AboutPds e b) (hs : ∀ r ∈ a, r ∈ b) : AboutPds e a :=
  ⟨fun r hr r' hr' => h.same r (hs r hr) r' (hs r' hr'), fun r hr => h.side r (hs r hr)⟩

theorem AboutGts.both {e f : Option Expr} {rows : List FRow} (h : AboutGts e rows) (h' : AboutGts f rows) : AboutGts (bothOf e f) rows :=
  ⟨fun r hr r' hr' h0 he => by rw [valueOf_both, valueOf_both, h.same r hr r' hr' h0 he, h'.same r hr r' hr' h0 he],
    fun r hr h0 vp => by rw [valueOf_both, valueOf_both, h.side r hr h0, h'.side r hr h0]⟩

theorem AboutPds.both {e f : Option Expr} {rows : List FRow} (h : AboutPds e rows) (h' : AboutPds f rows) : AboutPds (bothOf e f) rows :=
  ⟨fun r hr r' hr' h0 he => by rw [valueOf_both, valueOf_both, h.same r hr r' hr' h0 he, h'.same r hr r' hr' h0 he],
    fun r hr h0 vp => by rw [valueOf_both, valueOf_both, h.side r hr h0, h'.side r hr h0]⟩

theorem stored_flatten {rows tables : List (List FRow)} (h : Stored rows tables) : tables.flatten.Perm rows.flatten := by
  obtain ⟨groups, h1, h2⟩ := h
  have e : rows.flatten = (groups.map List.flatten).flatten := by
    have : (rows.filter (fun p => !p.isEmpty)).flatten = rows.flatten := by
      clear h1
      induction rows with
      | nil => rfl
      | cons a l ih =>
        rw [List.filter_cons]
        cases a with
        | nil => simp
        | cons x a => simp
    rw [← this, ← h1]
    clear this h1 h2
    induction groups with
    | nil => rfl
    | cons a l ih => simp [ih]
  rw [e]
  clear e h1
  induction h2 with
  | nil => exact List.Perm.refl _
  | cons h _ ih =>
    rw [List.map_cons, List.flatten_cons, List.flatten_cons]
    exact h.symm.append ih

theorem stored_one (rows : List (List FRow)) : Stored rows [rows.flatten] := by
  refine ⟨[rows.filter (fun p => !p.isEmpty)], by simp, ?_⟩
  refine List.Forall₂.cons (List.Perm.of_eq ?_) List.Forall₂.nil
  induction rows with
  | nil => rfl
  | cons a l ih =>
    rw [List.filter_cons]
    cases a with
    | nil => simp
    | cons x a => simp

/-- A filtered cache holds the rows that the step leaves of each row. -/
theorem filtered_perm {d g p : Option Expr} {tables t1 : List (List FRow)} (hf : ∀ r ∈ tables.flatten, RowForm r.row)
    (hg : AboutGts g tables.flatten) (hp : AboutPds p tables.flatten) (h : Stored (filterTables d g p tables) t1) :
    t1.flatten.Perm ((tables.flatten.filter (valueOf d)).filterMap (stepRow g p)) := by
  refine (stored_flatten h).trans ?_
  have e : filterTables d g p tables = tables.map (fun t => (t.filter (valueOf d)).filterMap (stepRow g p)) := by
    unfold filterTables
    apply List.map_congr_left
    intro t ht
    rw [readTable_value]
    have hs : ∀ r ∈ t.filter (valueOf d), r ∈ tables.flatten := fun r hr => List.mem_flatten.2 ⟨t, ht, (List.mem_filter.1 hr).1⟩
    exact filterTable_rows (fun r hr => hf r (hs r hr)) (hg.sub hs) (hp.sub hs)
  rw [e]
  clear e h hf hg hp
  induction tables with
  | nil => exact List.Perm.refl _
  | cons a l ih =>
    rw [List.map_cons, List.flatten_cons, List.flatten_cons, List.filter_append, List.filterMap_append]
    exact (List.Perm.refl _).append ih

/-- **C94 (detection, partial).** Filtering a filtered evaluator leaves the same rows as filtering once with both conditions on the datums, on the
ground truths and on the predictions, whatever the files in between. Missing: conditions that look at the other side of a row, for which it is
false (`C94_detection_violation`). -/
theorem C94_detection_partial {d1 g1 p1 d2 g2 p2 : Option Expr} {tables t1 t2 t12 : List (List FRow)} (hf : ∀ r ∈ tables.flatten, RowForm r.row)
    (hd : AboutDatums d2 tables.flatten) (hg1 : AboutGts g1 tables.flatten) (hg2 : AboutGts g2 tables.flatten) (hp1 : AboutPds p1 tables.flatten)
    (hp2 : AboutPds p2 tables.flatten) (h1 : Stored (filterTables d1 g1 p1 tables) t1) (h2 : Stored (filterTables d2 g2 p2 t1) t2)
    (h12 : Stored (filterTables (bothOf d1 d2) (bothOf g1 g2) (bothOf p1 p2) tables) t12) : t2.flatten.Perm t12.flatten := by
  have k1 := filtered_perm hf hg1 hp1 h1
  have hsub : ∀ r ∈ tables.flatten.filter (valueOf d1), r ∈ tables.flatten := fun r hr => (List.mem_filter.1 hr).1
  have hm : ∀ x ∈ t1.flatten, x ∈ (tables.flatten.filter (valueOf d1)).filterMap (stepRow g1 p1) := fun x hx => k1.mem_iff.1 hx
  have hf1 : ∀ x ∈ t1.flatten, RowForm x.row := by
    intro x hx
    obtain ⟨r, hr, hs⟩ := List.mem_filterMap.1 (hm x hx)
    obtain ⟨vg, vp, rfl, hk⟩ := stepRow_some hs
    exact clear_form (hf r (hsub r hr)) hk
  have k2 := filtered_perm hf1 ((hg2.sub hsub).after.sub hm) ((hp2.sub hsub).after.sub hm) h2
  have k12 := filtered_perm hf (hg1.both hg2) (hp1.both hp2) h12
  refine (k2.trans ((k1.filter _).filterMap _)).trans (List.Perm.trans (List.Perm.of_eq ?_) k12.symm)
  generalize tables.flatten = l at hf hd hg2 hp2
  clear k1 k2 k12 h1 h2 h12 hm hf1 hsub hg1 hp1
  have hside : ∀ r ∈ l, RowForm r.row ∧ (∀ vg vp, valueOf d2 (clear vg vp r) = valueOf d2 r) ∧
      (0 ≤ r.row.gt → ∀ vp, valueOf g2 (clear true vp r) = valueOf g2 r) ∧ (0 ≤ r.row.pd → ∀ vg, valueOf p2 (clear vg true r) = valueOf p2 r) :=
    fun r hr => ⟨hf r hr, hd r hr, hg2.side r hr, hp2.side r hr⟩
  clear hf hd hg2 hp2
  induction l with
  | nil => rfl
  | cons r l ih =>
    have ih := ih (fun r' hr' => hside r' (List.mem_cons_of_mem _ hr'))
    obtain ⟨_, a2, a3, a4⟩ := hside r List.mem_cons_self
    have key := stepRow_twice (g1 := g1) (p1 := p1) (g2 := g2) (p2 := p2) a2 a3 a4
    rw [List.filter_cons, List.filter_cons, valueOf_both]
    cases v1 : valueOf d1 r
    · simpa using ih
    · cases v2 : valueOf d2 r
      · rw [v2] at key
        cases hs : stepRow g1 p1 r with
        | none => simpa [hs] using ih
        | some x =>
          have hx : valueOf d2 x = false := by
            obtain ⟨vg, vp, rfl, _⟩ := stepRow_some hs
            rw [a2, v2]
          simpa [hs, hx] using ih
      · rw [v2] at key
        cases hs : stepRow g1 p1 r with
        | none =>
          rw [hs] at key
          have key : stepRow (bothOf g1 g2) (bothOf p1 p2) r = none := by simpa using key.symm
          simpa [hs, key] using ih
        | some x =>
          have hx : valueOf d2 x = true := by
            obtain ⟨vg, vp, rfl, _⟩ := stepRow_some hs
            rw [a2, v2]
          rw [hs] at key
          have key : stepRow g2 p2 x = stepRow (bothOf g1 g2) (bothOf p1 p2) r := by simpa [hx] using key
          simp only [List.filterMap_cons, hs, List.filter_cons, hx, Bool.and_self, if_true, key]
          cases stepRow (bothOf g1 g2) (bothOf p1 p2) r <;> simp [ih]

/-- Conditions on what the user gave: the uid of the datum, uid and label of a ground truth, uid, label and score of a prediction. -/
structure Asks where
  datum : String → Bool
  gt : String → Option String → Option String → Bool
  pd : String → Option String → Option String → Rat → Bool

/-- The three expressions of such conditions. -/
def Asks.d (q : Asks) : Option Expr := some (fun r => q.datum r.datumUid)
/-- The expression for ground truths. -/
def Asks.g (q : Asks) : Option Expr := some (fun r => q.gt r.datumUid r.gtUid r.gtLabel)
/-- The expression for predictions. -/
def Asks.p (q : Asks) : Option Expr := some (fun r => q.pd r.datumUid r.pdUid r.pdLabel r.row.score)

/-- All conditions of both. -/
def Asks.and (q q' : Asks) : Asks :=
  ⟨fun u => q.datum u && q'.datum u, fun u a b => q.gt u a b && q'.gt u a b, fun u a b s => q.pd u a b s && q'.pd u a b s⟩

theorem loader_row {calls : List History} {r : FRow} (h : r ∈ (Loader.init.addAll calls).rows.flatten) : ∃ (k : Nat) (x : Det × (Nat → Nat → Rat)),
    calls.flatten[k]? = some x ∧ IsRow (Loader.init.addAll calls).labels x.1 x.2 k (gtOffset calls.flatten k) (pdOffset calls.flatten k) r := by
  obtain ⟨_, hlen, hrows⟩ := C34_rows calls
  obtain ⟨p, hp, hr⟩ := List.mem_flatten.1 h
  obtain ⟨k, hk, rfl⟩ := List.getElem_of_mem hp
  have hx : calls.flatten[k]? = some (calls.flatten[k]'(by omega)) := List.getElem?_eq_getElem (by omega)
  obtain ⟨payload, hp', hm⟩ := hrows k _ hx
  rw [List.getElem?_eq_getElem hk, Option.some.injEq] at hp'
  rw [hp'] at hr
  exact ⟨k, _, hx, (hm r).1 hr⟩

theorem loader_form {calls : List History} {r : FRow} (h : r ∈ (Loader.init.addAll calls).rows.flatten) : RowForm r.row := by
  obtain ⟨k, x, _, hr⟩ := loader_row h
  rcases hr with ⟨_, _, _, _, rfl⟩ | ⟨_, _, _, _, _, _, _, rfl⟩ | ⟨_, _, _, _, _, _, _, _, _, _, _, _, rfl⟩
  · exact ⟨by simp only [gtRow]; omega, fun _ => ⟨rfl, rfl, rfl, rfl⟩, Or.inl (by simp only [gtRow]; omega)⟩
  · exact ⟨fun _ => ⟨rfl, rfl, rfl⟩, by simp only [pdRow]; omega, Or.inr (by simp only [pdRow]; omega)⟩
  · exact ⟨by simp only [pairRow]; omega, by simp only [pairRow]; omega, Or.inl (by simp only [pairRow]; omega)⟩

/-- The texts of a ground truth are the same in all its rows. -/
theorem loader_gtTexts {calls : List History} {r r' : FRow} (h : r ∈ (Loader.init.addAll calls).rows.flatten)
    (h' : r' ∈ (Loader.init.addAll calls).rows.flatten) (h0 : 0 ≤ r.row.gt) (he : gtCols r = gtCols r') :
    r.datumUid = r'.datumUid ∧ r.gtUid = r'.gtUid ∧ r.gtLabel = r'.gtLabel := by
  obtain ⟨k, x, hx, hr⟩ := loader_row h
  obtain ⟨k', x', hx', hr'⟩ := loader_row h'
  have hl := (isRow_labels calls hx hr).1
  have hl' := (isRow_labels calls hx' hr').1
  have hk : k = k' := by
    have : r.row.datum = r'.row.datum := congrArg Prod.fst he
    rw [hr.datum, hr'.datum] at this
    exact_mod_cast this
  subst hk
  have hxx : x = x' := Option.some.inj (hx.symm.trans hx')
  subst hxx
  have hg : r.row.gt = r'.row.gt := congrArg (fun z => z.2.1) he
  have hgl : r.row.gl = r'.row.gl := congrArg (fun z => z.2.2) he
  have key : ∀ {f : FRow}, IsRow (Loader.init.addAll calls).labels x.1 x.2 k (gtOffset calls.flatten k) (pdOffset calls.flatten k) f → 0 ≤ f.row.gt →
      ∃ (g : Nat) (a : Ann) (v : String), x.1.gts[g]? = some a ∧ f.row.gt = ((gtOffset calls.flatten k + g : Nat) : Int) ∧
        f.row.gl = ((Loader.init.addAll calls).labels.idxOf v : Int) ∧ f.datumUid = x.1.uid ∧ f.gtUid = some a.uid ∧ f.gtLabel = some v := by
    intro f hf hf0
    rcases hf with ⟨g, a, hg, _, rfl⟩ | ⟨_, _, _, _, _, _, _, rfl⟩ | ⟨g, a, _, _, v, _, _, hg, _, _, _, _, rfl⟩
    · exact ⟨g, a, _, hg, rfl, rfl, rfl, rfl, rfl⟩
    · exact absurd hf0 (by simp [pdRow])
    · exact ⟨g, a, v, hg, rfl, rfl, rfl, rfl, rfl⟩
  obtain ⟨g, a, v, e1, e2, e3, e4, e5, e6⟩ := key hr h0
  obtain ⟨g', a', v', f1, f2, f3, f4, f5, f6⟩ := key hr' (hg ▸ h0)
  have hgg : g = g' := by
    rw [e2, f2] at hg
    have : gtOffset calls.flatten k + g = gtOffset calls.flatten k + g' := by exact_mod_cast hg
    omega
  subst hgg
  have haa : a = a' := Option.some.inj (e1.symm.trans f1)
  have hvv : v = v' := by
    rw [e3, f3] at hgl
    exact (List.idxOf_inj (hl v e6)).1 (by exact_mod_cast hgl)
  subst haa hvv
  exact ⟨e4.trans f4.symm, e5.trans f5.symm, e6.trans f6.symm⟩

/-- So are the texts and the score of a prediction, if its labels are different. -/
theorem loader_pdTexts {calls : List History} (hn : ∀ x ∈ calls.flatten, ∀ a ∈ x.1.pds, a.labels.Nodup) {r r' : FRow}
    (h : r ∈ (Loader.init.addAll calls).rows.flatten) (h' : r' ∈ (Loader.init.addAll calls).rows.flatten) (h0 : 0 ≤ r.row.pd)
    (he : pdCols r = pdCols r') : r.datumUid = r'.datumUid ∧ r.pdUid = r'.pdUid ∧ r.pdLabel = r'.pdLabel ∧ r.row.score = r'.row.score := by
  obtain ⟨k, x, hx, hr⟩ := loader_row h
  obtain ⟨k', x', hx', hr'⟩ := loader_row h'
  have hl := (isRow_labels calls hx hr).2
  have hk : k = k' := by
    have : r.row.datum = r'.row.datum := congrArg Prod.fst he
    rw [hr.datum, hr'.datum] at this
    exact_mod_cast this
  subst hk
  have hxx : x = x' := Option.some.inj (hx.symm.trans hx')
  subst hxx
  have hg : r.row.pd = r'.row.pd := congrArg (fun z => z.2.1) he
  have hgl : r.row.pl = r'.row.pl := congrArg (fun z => z.2.2) he
  have key : ∀ {f : FRow}, IsRow (Loader.init.addAll calls).labels x.1 x.2 k (gtOffset calls.flatten k) (pdOffset calls.flatten k) f → 0 ≤ f.row.pd →
      ∃ (g : Nat) (a : Ann) (v : String), x.1.pds[g]? = some a ∧ f.row.pd = ((pdOffset calls.flatten k + g : Nat) : Int) ∧
        f.row.pl = ((Loader.init.addAll calls).labels.idxOf v : Int) ∧ f.datumUid = x.1.uid ∧ f.pdUid = some a.uid ∧ f.pdLabel = some v ∧
        (v, f.row.score) ∈ a.labels.zip a.scores := by
    intro f hf hf0
    rcases hf with ⟨_, _, _, _, rfl⟩ | ⟨p, a, v, c, hp, hz, _, rfl⟩ | ⟨_, _, p, a, _, v, c, _, hp, _, _, hz, rfl⟩
    · exact absurd hf0 (by simp [gtRow])
    · exact ⟨p, a, v, hp, rfl, rfl, rfl, rfl, rfl, hz⟩
    · exact ⟨p, a, v, hp, rfl, rfl, rfl, rfl, rfl, hz⟩
  obtain ⟨g, a, v, e1, e2, e3, e4, e5, e6, e7⟩ := key hr h0
  obtain ⟨g', a', v', f1, f2, f3, f4, f5, f6, f7⟩ := key hr' (hg ▸ h0)
  have hgg : g = g' := by
    rw [e2, f2] at hg
    have : pdOffset calls.flatten k + g = pdOffset calls.flatten k + g' := by exact_mod_cast hg
    omega
  subst hgg
  have haa : a = a' := Option.some.inj (e1.symm.trans f1)
  have hvv : v = v' := by
    rw [e3, f3] at hgl
    exact (List.idxOf_inj (hl v e6)).1 (by exact_mod_cast hgl)
  subst haa hvv
  refine ⟨e4.trans f4.symm, e5.trans f5.symm, e6.trans f6.symm, ?_⟩
  have hnd := hn x (List.mem_of_getElem? hx) a (List.mem_of_getElem? e1)
  generalize r.row.score = c at e7
  generalize r'.row.score = c' at f7
  obtain ⟨i, hi, ei⟩ := List.getElem_of_mem e7
  obtain ⟨j, hj, ej⟩ := List.getElem_of_mem f7
  rw [List.getElem_zip, Prod.mk.injEq] at ei ej
  have hij : i = j := (List.Nodup.getElem_inj_iff hnd).1 (ei.1.trans ej.1.symm)
  subst hij
  exact ei.2.symm.trans ej.2

/-- **C94 (detection).** For every dataset in which no prediction lists a label twice, and conditions on what the user gave (uids, labels, scores):
filtering a filtered evaluator leaves the same rows as filtering once with both, whatever the files of the three evaluators. -/
theorem C94_detection {calls : List History} (hn : ∀ x ∈ calls.flatten, ∀ a ∈ x.1.pds, a.labels.Nodup) (q q' : Asks)
    {tables t1 t2 t12 : List (List FRow)} (h : Stored (Loader.init.addAll calls).rows tables) (h1 : Stored (filterTables q.d q.g q.p tables) t1)
    (h2 : Stored (filterTables q'.d q'.g q'.p t1) t2) (h12 : Stored (filterTables (q.and q').d (q.and q').g (q.and q').p tables) t12) :
    t2.flatten.Perm t12.flatten := by
  have hm : ∀ r ∈ tables.flatten, r ∈ (Loader.init.addAll calls).rows.flatten := fun r hr => (stored_mem_iff h r).1 hr
  have hg : ∀ q : Asks, AboutGts q.g tables.flatten := by
    intro q
    refine ⟨fun r hr r' hr' h0 he => ?_, fun _ _ _ _ => rfl⟩
    obtain ⟨e1, e2, e3⟩ := loader_gtTexts (hm r hr) (hm r' hr') h0 he
    show q.gt _ _ _ = q.gt _ _ _
    rw [e1, e2, e3]
  have hp : ∀ q : Asks, AboutPds q.p tables.flatten := by
    intro q
    refine ⟨fun r hr r' hr' h0 he => ?_, fun _ _ _ _ => rfl⟩
    obtain ⟨e1, e2, e3, e4⟩ := loader_pdTexts hn (hm r hr) (hm r' hr') h0 he
    show q.pd _ _ _ _ = q.pd _ _ _ _
    rw [e1, e2, e3, e4]
  exact C94_detection_partial (d1 := q.d) (d2 := q'.d) (g1 := q.g) (g2 := q'.g) (p1 := q.p) (p2 := q'.p) (fun r hr => loader_form (hm r hr))
    (fun _ _ _ _ => rfl) (hg q) (hg q') (hp q) (hp q') h1 h2 h12

/-- **C94 (order).** The order of two filters does not matter. -/
theorem C94_detection_order {calls : List History} (hn : ∀ x ∈ calls.flatten, ∀ a ∈ x.1.pds, a.labels.Nodup) (q q' : Asks)
    {tables t1 t2 s1 s2 : List (List FRow)} (h : Stored (Loader.init.addAll calls).rows tables) (h1 : Stored (filterTables q.d q.g q.p tables) t1)
    (h2 : Stored (filterTables q'.d q'.g q'.p t1) t2) (k1 : Stored (filterTables q'.d q'.g q'.p tables) s1)
    (k2 : Stored (filterTables q.d q.g q.p s1) s2) : t2.flatten.Perm s2.flatten := by
  have hc : q.and q' = q'.and q := by
    unfold Asks.and
    simp only [Bool.and_comm]
  have hex : ∃ t12, Stored (filterTables (q.and q').d (q.and q').g (q.and q').p tables) t12 := ⟨_, stored_one _⟩
  obtain ⟨t12, h12⟩ := hex
  have e1 := C94_detection hn q q' h h1 h2 h12
  rw [hc] at h12
  exact e1.trans (C94_detection hn q' q h k1 k2 h12).symm

/-- **C94 (repetition).** Filtering again with the same conditions changes nothing. -/
theorem C94_detection_again {calls : List History} (hn : ∀ x ∈ calls.flatten, ∀ a ∈ x.1.pds, a.labels.Nodup) (q : Asks)
    {tables t1 t2 : List (List FRow)} (h : Stored (Loader.init.addAll calls).rows tables) (h1 : Stored (filterTables q.d q.g q.p tables) t1)
    (h2 : Stored (filterTables q.d q.g q.p t1) t2) : t2.flatten.Perm t1.flatten := by
  have hc : q.and q = q := by
    unfold Asks.and
    simp only [Bool.and_self]
  exact C94_detection hn q q h h1 h2 (by rw [hc]; exact h1)

/-! ## Where it fails -/

/-- A cat that overlaps a confident prediction and another one. -/
def watched : List History :=
  [[(⟨"d", [⟨"g", ["cat"], [], ""⟩], [⟨"p", ["cat"], [9/10], ""⟩, ⟨"q", ["dog"], [3/10], ""⟩], ""⟩, fun _ _ => 1)]]

/-- The filters and the storage of the claim, for any conditions. -/
def Composes (d1 g1 p1 d2 g2 p2 : Option Expr) (tables : List (List FRow)) : Prop :=
  ∀ t1 t2 t12, Stored (filterTables d1 g1 p1 tables) t1 → Stored (filterTables d2 g2 p2 t1) t2 →
    Stored (filterTables (bothOf d1 d2) (bothOf g1 g2) (bothOf p1 p2) tables) t12 → t2.flatten.Perm t12.flatten

theorem not_composes {d1 g1 p1 d2 g2 p2 : Option Expr} {tables : List (List FRow)}
    (h : (filterTables d2 g2 p2 [(filterTables d1 g1 p1 tables).flatten]).flatten.length
      ≠ (filterTables (bothOf d1 d2) (bothOf g1 g2) (bothOf p1 p2) tables).flatten.length) : ¬ Composes d1 g1 p1 d2 g2 p2 tables := by
  intro hc
  have := hc _ _ _ (stored_one _) (stored_one _) (stored_one _)
  apply h
  simpa using this.length_eq

/-- **C94 fails** for conditions that look at the other side: first keep the dogs among the predictions, then the ground truths that have a
prediction with a score above one half. One step with both keeps the cat, two steps do not. -/
theorem C94_detection_violation : ¬ Composes none none (some (fun r => decide (r.pdLabel = some "dog"))) none
    (some (fun r => decide (1 / 2 < r.row.score))) none (Loader.init.addAll watched).rows :=
  not_composes (by decide +kernel)

/-- A prediction that lists a label twice. -/
def doubled : List History := [[(⟨"d", [], [⟨"p", ["cat", "cat"], [9/10, 1/10], ""⟩], ""⟩, fun _ _ => 0)]]

/-- **C94 fails** for a prediction that lists a label twice: no score is above and below one half, but two steps keep both entries. -/
theorem C94_doubled_violation : ¬ Composes none none (some (fun r => decide (1 / 2 < r.row.score))) none none
    (some (fun r => decide (r.row.score < 1 / 2))) (Loader.init.addAll doubled).rows :=
  not_composes (by decide +kernel)

/-! ## The hypotheses can be met -/

/-- Dogs among the predictions. -/
def dogsOnly : Asks := ⟨fun _ => true, fun _ _ _ => true, fun _ _ l _ => decide (l = some "dog")⟩
/-- Confident predictions. -/
def confident : Asks := ⟨fun _ => true, fun _ _ _ => true, fun _ _ _ s => decide (1 / 2 < s)⟩

example : (∀ x ∈ watched.flatten, ∀ a ∈ x.1.pds, a.labels.Nodup) ∧ ∃ tables t1 t2 t12, Stored (Loader.init.addAll watched).rows tables ∧
    Stored (filterTables dogsOnly.d dogsOnly.g dogsOnly.p tables) t1 ∧ Stored (filterTables confident.d confident.g confident.p t1) t2 ∧
    Stored (filterTables (dogsOnly.and confident).d (dogsOnly.and confident).g (dogsOnly.and confident).p tables) t12 :=
  ⟨by simp [watched], _, _, _, _, stored_one _, stored_one _, stored_one _, stored_one _⟩

/-- Nothing is left of the predictions, the ground truth stays. -/
example : (filterTables (dogsOnly.and confident).d (dogsOnly.and confident).g (dogsOnly.and confident).p (Loader.init.addAll watched).rows).flatten.map
    (fun r => (r.row.gt, r.row.pd)) = [(0, -1), (0, -1)] := by decide +kernel

end Verif.Detection
