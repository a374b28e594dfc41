import Verif.Segmentation.FilterProps

/-! # C94 for segmentation: filters compose -/

namespace Verif.Segmentation

/-- Both conditions. -/
def bothOf : Option Expr → Option Expr → Option Expr
  | none, e => e
  | some e, none => some e
  | some e, some f => some (fun r => e r && f r)

/-- The value of an optional condition. -/
def valueOf (e : Option Expr) (r : SRow) : Bool :=
  match e with
  | none => true
  | some e => e r

/-- The row with a side set to "none" or not. -/
def clear (vg vp : Bool) (r : SRow) : SRow := { r with gl := if vg then r.gl else -1, pl := if vp then r.pl else -1 }

/-- A condition on images. -/
def AboutImages (e : Option Expr) (rows : List SRow) : Prop := ∀ r ∈ rows, ∀ vg vp, valueOf e (clear vg vp r) = valueOf e r

/-- A condition on ground truths: the same in all rows of an image and a ground truth label, and the prediction does not matter. -/
structure AboutGts (e : Option Expr) (rows : List SRow) : Prop where
  same : ∀ r ∈ rows, ∀ r' ∈ rows, r.gl ≠ -1 → r.datum = r'.datum → r.gl = r'.gl → valueOf e r = valueOf e r'
  side : ∀ r ∈ rows, r.gl ≠ -1 → ∀ vp, valueOf e (clear true vp r) = valueOf e r

/-- A condition on predictions. -/
structure AboutPds (e : Option Expr) (rows : List SRow) : Prop where
  same : ∀ r ∈ rows, ∀ r' ∈ rows, r.pl ≠ -1 → r.datum = r'.datum → r.pl = r'.pl → valueOf e r = valueOf e r'
  side : ∀ r ∈ rows, r.pl ≠ -1 → ∀ vg, valueOf e (clear vg true r) = valueOf e r

theorem valueOf_both (e f : Option Expr) (r : SRow) : valueOf (bothOf e f) r = (valueOf e r && valueOf f r) := by
  cases e <;> cases f <;> simp [bothOf, valueOf]

theorem readTable_value (e : Option Expr) (tbl : List SRow) : readTable e tbl = tbl.filter (valueOf e) := by
  cases e with
  | none => exact (List.filter_eq_self.2 (fun _ _ => rfl)).symm
  | some e => rfl

/-- What becomes of a row. -/
def stepRow (g p : Option Expr) (r : SRow) : SRow := clear (valueOf g r) (valueOf p r) r

theorem mask_value {e : Option Expr} {f : SRow → Int × Int} {tbl : List SRow} {r : SRow} (hr : r ∈ tbl)
    (h : ∀ r' ∈ tbl, f r' = f r → valueOf e r' = valueOf e r) : validMask e f tbl r = valueOf e r := by
  cases e with
  | none => rfl
  | some e =>
    rw [Bool.eq_iff_iff, validMask_iff]
    exact ⟨fun ⟨r', h1, h2, h3⟩ => (h r' h1 h3) ▸ h2, fun he => ⟨r, hr, he, rfl⟩⟩

theorem filterTable_rows {g p : Option Expr} {tbl : List SRow} (hg : AboutGts g tbl) (hp : AboutPds p tbl) :
    filterTable g p tbl = tbl.map (stepRow g p) := by
  unfold filterTable
  apply List.map_congr_left
  intro r hr
  have e1 : (if validMask g (fun r => (r.datum, r.gl)) tbl r then r.gl else -1) = if valueOf g r then r.gl else -1 := by
    by_cases h : r.gl = -1
    · simp [h]
    · rw [mask_value hr (fun r' hr' he => (hg.same r hr r' hr' h (congrArg Prod.fst he).symm (congrArg Prod.snd he).symm).symm)]
  have e2 : (if validMask p (fun r => (r.datum, r.pl)) tbl r then r.pl else -1) = if valueOf p r then r.pl else -1 := by
    by_cases h : r.pl = -1
    · simp [h]
    · rw [mask_value hr (fun r' hr' he => (hp.same r hr r' hr' h (congrArg Prod.fst he).symm (congrArg Prod.snd he).symm).symm)]
  unfold stepRow clear
  rw [← e1, ← e2]
  cases validMask g (fun r => (r.datum, r.gl)) tbl r <;> cases validMask p (fun r => (r.datum, r.pl)) tbl r <;> rfl

theorem AboutGts.sub {e : Option Expr} {a b : List SRow} (h : AboutGts e b) (hs : ∀ r ∈ a, r ∈ b) : AboutGts e a :=
  ⟨fun r hr r' hr' => h.same r (hs r hr) r' (hs r' hr'), fun r hr => h.side r (hs r hr)⟩

theorem AboutPds.sub {e : Option Expr} {a b : List SRow} (h : AboutPds e b) (hs : ∀ r ∈ a, r ∈ b) : AboutPds e a :=
  ⟨fun r hr r' hr' => h.same r (hs r hr) r' (hs r' hr'), fun r hr => h.side r (hs r hr)⟩

theorem AboutGts.both {e f : Option Expr} {rows : List SRow} (h : AboutGts e rows) (h' : AboutGts f rows) : AboutGts (bothOf e f) rows :=
  ⟨fun r hr r' hr' h0 e1 e2 => by rw [valueOf_both, valueOf_both, h.same r hr r' hr' h0 e1 e2, h'.same r hr r' hr' h0 e1 e2],
    fun r hr h0 vp => by rw [valueOf_both, valueOf_both, h.side r hr h0, h'.side r hr h0]⟩

theorem AboutPds.both {e f : Option Expr} {rows : List SRow} (h : AboutPds e rows) (h' : AboutPds f rows) : AboutPds (bothOf e f) rows :=
  ⟨fun r hr r' hr' h0 e1 e2 => by rw [valueOf_both, valueOf_both, h.same r hr r' hr' h0 e1 e2, h'.same r hr r' hr' h0 e1 e2],
    fun r hr h0 vp => by rw [valueOf_both, valueOf_both, h.side r hr h0, h'.side r hr h0]⟩

theorem clear_clear (a b a' b' : Bool) (r : SRow) : clear a b (clear a' b' r) = clear (a && a') (b && b') r := by
  cases a <;> cases b <;> cases a' <;> cases b' <;> rfl

theorem AboutGts.after {e g p : Option Expr} {rows : List SRow} (h : AboutGts e rows) : AboutGts e (rows.map (stepRow g p)) := by
  have key : ∀ x ∈ rows.map (stepRow g p), x.gl ≠ -1 → ∃ r ∈ rows, ∃ vp, x = clear true vp r ∧ r.gl ≠ -1 := by
    intro x hx h0
    obtain ⟨r, hr, rfl⟩ := List.mem_map.1 hx
    unfold stepRow at h0 ⊢
    cases hv : valueOf g r
    · rw [hv] at h0
      exact absurd rfl h0
    · rw [hv] at h0
      exact ⟨r, hr, _, rfl, h0⟩
  constructor
  · intro x hx y hy h0 e1 e2
    obtain ⟨r, hr, vp, rfl, hr0⟩ := key x hx h0
    obtain ⟨r', hr', vp', rfl, hr0'⟩ := key y hy (e2 ▸ h0)
    rw [h.side r hr hr0, h.side r' hr' hr0']
    exact h.same r hr r' hr' hr0 e1 e2
  · intro x hx h0 vp'
    obtain ⟨r, hr, vp, rfl, hr0⟩ := key x hx h0
    rw [clear_clear, Bool.and_self, h.side r hr hr0, h.side r hr hr0]

theorem AboutPds.after {e g p : Option Expr} {rows : List SRow} (h : AboutPds e rows) : AboutPds e (rows.map (stepRow g p)) := by
  have key : ∀ x ∈ rows.map (stepRow g p), x.pl ≠ -1 → ∃ r ∈ rows, ∃ vg, x = clear vg true r ∧ r.pl ≠ -1 := by
    intro x hx h0
    obtain ⟨r, hr, rfl⟩ := List.mem_map.1 hx
    unfold stepRow at h0 ⊢
    cases hv : valueOf p r
    · rw [hv] at h0
      exact absurd rfl h0
    · rw [hv] at h0
      exact ⟨r, hr, _, rfl, h0⟩
  constructor
  · intro x hx y hy h0 e1 e2
    obtain ⟨r, hr, vp, rfl, hr0⟩ := key x hx h0
    obtain ⟨r', hr', vp', rfl, hr0'⟩ := key y hy (e2 ▸ h0)
    rw [h.side r hr hr0, h.side r' hr' hr0']
    exact h.same r hr r' hr' hr0 e1 e2
  · intro x hx h0 vp'
    obtain ⟨r, hr, vp, rfl, hr0⟩ := key x hx h0
    rw [clear_clear, Bool.and_self, h.side r hr hr0, h.side r hr hr0]

theorem filtered_flatten {d g p : Option Expr} {tables : List (List SRow)} (hg : AboutGts g tables.flatten) (hp : AboutPds p tables.flatten) :
    (filterTables d g p tables).flatten = (tables.flatten.filter (valueOf d)).map (stepRow g p) := by
  have e : filterTables d g p tables = tables.map (fun t => (t.filter (valueOf d)).map (stepRow g p)) := by
    unfold filterTables
    apply List.map_congr_left
    intro t ht
    rw [readTable_value]
    have hs : ∀ r ∈ t.filter (valueOf d), r ∈ tables.flatten := fun r hr => List.mem_flatten.2 ⟨t, ht, (List.mem_filter.1 hr).1⟩
    exact filterTable_rows (hg.sub hs) (hp.sub hs)
  rw [e]
  clear e hg hp
  induction tables with
  | nil => rfl
  | cons a l ih => rw [List.map_cons, List.flatten_cons, List.flatten_cons, List.filter_append, List.map_append, ih]

/-- The claim: two filters, with any tables in between (the rows may be cut and ordered in any way, also inside an image), leave the rows that one
filter with both conditions leaves. -/
def Composes (d1 g1 p1 d2 g2 p2 : Option Expr) (tables : List (List SRow)) : Prop :=
  ∀ t1 : List (List SRow), t1.flatten.Perm (filterTables d1 g1 p1 tables).flatten →
    (filterTables d2 g2 p2 t1).flatten.Perm (filterTables (bothOf d1 d2) (bothOf g1 g2) (bothOf p1 p2) tables).flatten

/-- **C94 (segmentation, partial).** It holds when the conditions look at their side only. Missing: other conditions, for which it is false
(`C94_segmentation_violation`). -/
theorem C94_segmentation_partial {d1 g1 p1 d2 g2 p2 : Option Expr} {tables : List (List SRow)} (hd : AboutImages d2 tables.flatten)
    (hg1 : AboutGts g1 tables.flatten) (hg2 : AboutGts g2 tables.flatten) (hp1 : AboutPds p1 tables.flatten) (hp2 : AboutPds p2 tables.flatten) :
    Composes d1 g1 p1 d2 g2 p2 tables := by
  intro t1 h
  rw [filtered_flatten hg1 hp1] at h
  have hsub : ∀ r ∈ tables.flatten.filter (valueOf d1), r ∈ tables.flatten := fun r hr => (List.mem_filter.1 hr).1
  have hm : ∀ x ∈ t1.flatten, x ∈ (tables.flatten.filter (valueOf d1)).map (stepRow g1 p1) := fun x hx => h.mem_iff.1 hx
  rw [filtered_flatten ((hg2.sub hsub).after.sub hm) ((hp2.sub hsub).after.sub hm), filtered_flatten (hg1.both hg2) (hp1.both hp2)]
  refine ((h.filter _).map _).trans (List.Perm.of_eq ?_)
  rw [List.filter_map, List.map_map, List.filter_filter]
  have e : tables.flatten.filter (fun a => valueOf d1 a && (valueOf d2 ∘ stepRow g1 p1) a) = tables.flatten.filter (valueOf (bothOf d1 d2)) := by
    apply List.filter_congr
    intro r hr
    rw [valueOf_both, Function.comp_apply]
    unfold stepRow
    rw [hd r hr]
  have e' : tables.flatten.filter (fun a => (valueOf d2 ∘ stepRow g1 p1) a && valueOf d1 a) = tables.flatten.filter (valueOf (bothOf d1 d2)) := by
    rw [← e]
    exact List.filter_congr (fun r _ => Bool.and_comm _ _)
  first
  | rw [e]
  | rw [e']
  apply List.map_congr_left
  intro r hr
  have hr := (List.mem_filter.1 hr).1
  rw [Function.comp_apply]
  have hgv : (if valueOf g2 (clear (valueOf g1 r) (valueOf p1 r) r) && valueOf g1 r then r.gl else -1) = if valueOf g1 r && valueOf g2 r then r.gl else -1 := by
    by_cases h0 : r.gl = -1
    · simp [h0]
    · cases hv : valueOf g1 r
      · simp
      · rw [hg2.side r hr h0, Bool.and_comm]
  have hpv : (if valueOf p2 (clear (valueOf g1 r) (valueOf p1 r) r) && valueOf p1 r then r.pl else -1) = if valueOf p1 r && valueOf p2 r then r.pl else -1 := by
    by_cases h0 : r.pl = -1
    · simp [h0]
    · cases hv : valueOf p1 r
      · simp
      · rw [hp2.side r hr h0, Bool.and_comm]
  show clear (valueOf g2 (clear (valueOf g1 r) (valueOf p1 r) r)) (valueOf p2 (clear (valueOf g1 r) (valueOf p1 r) r)) (clear (valueOf g1 r) (valueOf p1 r) r) =
    clear (valueOf (bothOf g1 g2) r) (valueOf (bothOf p1 p2) r) r
  rw [clear_clear, valueOf_both, valueOf_both]
  unfold clear at *
  rw [hgv, hpv]

/-- The matrix is the sum over all rows, modulo 2^64. -/
theorem matrix_sum (n : Nat) (tables : List (List SRow)) (i j : Nat) :
    confusionMatrix n none tables i j = if i ≤ n ∧ j ≤ n then rowSum tables.flatten i j % 2 ^ 64 else 0 := by
  unfold confusionMatrix
  split
  · have hu : ∀ x : Nat, u64 (x : Int) = x % 2 ^ 64 := by
      intro x
      unfold u64
      omega
    have key : ∀ (ts : List (List SRow)) (acc : Nat), acc < 2 ^ 64 →
        ts.foldl (fun acc tbl => u64 ((acc + tableEntry (readTable none tbl) i j : Nat) : Int)) acc = (acc + rowSum ts.flatten i j) % 2 ^ 64 := by
      intro ts
      induction ts with
      | nil =>
        intro acc h
        rw [List.foldl_nil, List.flatten_nil, rowSum_nil]
        omega
      | cons t ts ih =>
        intro acc h
        have e : tableEntry (readTable none t) i j = rowSum t i j % 2 ^ 64 := hu _
        rw [List.foldl_cons, hu, ih _ (Nat.mod_lt _ (by norm_num)), List.flatten_cons, rowSum_append, e]
        omega
    rw [key tables 0 (by norm_num), Nat.zero_add]
  · rfl

/-- **C94 (segmentation, reports, partial).** The confusion matrix, from which all metrics are computed, is the same after two filters and after one.
Missing: as in `C94_segmentation_partial`. -/
theorem C94_segmentation_matrix_partial {d1 g1 p1 d2 g2 p2 : Option Expr} {tables t1 t2 t12 : List (List SRow)} (hd : AboutImages d2 tables.flatten)
    (hg1 : AboutGts g1 tables.flatten) (hg2 : AboutGts g2 tables.flatten) (hp1 : AboutPds p1 tables.flatten) (hp2 : AboutPds p2 tables.flatten)
    (h1 : t1.flatten.Perm (filterTables d1 g1 p1 tables).flatten) (h2 : t2.flatten.Perm (filterTables d2 g2 p2 t1).flatten)
    (h12 : t12.flatten.Perm (filterTables (bothOf d1 d2) (bothOf g1 g2) (bothOf p1 p2) tables).flatten) (n : Nat) :
    confusionMatrix n none t2 = confusionMatrix n none t12 := by
  have hp := (h2.trans (C94_segmentation_partial hd hg1 hg2 hp1 hp2 t1 h1)).trans h12.symm
  funext i j
  rw [matrix_sum, matrix_sum, rowSum_perm hp]

/-- A cat that is predicted as a dog. -/
def mistaken : List (List SRow) := (Loader.init.addAll [[⟨"d", 2, [⟨[true, true], "cat", none⟩], [⟨[true, true], "dog", none⟩], none⟩]]).rows

/-- **C94 fails** for a condition on ground truths that looks at predictions: remove the dogs from the predictions, then keep the ground truths that
meet a prediction. One step with both keeps the cat, two steps do not. -/
theorem C94_segmentation_violation : ¬ Composes none none (some (fun r => decide (r.pdLabel = some "cat"))) none
    (some (fun r => decide (0 ≤ r.pl ∧ 0 < r.count))) none mistaken := by
  intro h
  have := (h _ (List.Perm.refl _)).map SRow.gl
  have := (this.filter (fun i => decide (0 ≤ i))).length_eq
  revert this
  decide +kernel

instance (e : Option Expr) (rows : List SRow) : Decidable (AboutImages e rows) := by unfold AboutImages; infer_instance

example : AboutImages (some (fun r => decide (r.datumUid = "d"))) mistaken.flatten ∧ AboutGts (some (fun r => decide (r.gtLabel = some "cat"))) mistaken.flatten ∧
    AboutGts none mistaken.flatten ∧ AboutPds (some (fun r => decide (r.pdLabel = some "cat"))) mistaken.flatten ∧ AboutPds none mistaken.flatten ∧
    (filterTables none none (some (fun r => decide (r.pdLabel = some "cat"))) mistaken).flatten ≠ mistaken.flatten :=
  ⟨by decide +kernel, ⟨by decide +kernel, by decide +kernel⟩, ⟨fun _ _ _ _ _ _ _ => rfl, fun _ _ _ _ => rfl⟩, ⟨by decide +kernel, by decide +kernel⟩,
    ⟨fun _ _ _ _ _ _ _ => rfl, fun _ _ _ _ => rfl⟩, by decide +kernel⟩

end Verif.Segmentation
