import Verif.Classification.Interrupted

/-!
# C35: repeating `finalize` of a classification builder

`Builder.finalize` takes the content of the intermediate cache as an argument. Here that cache is part of the state, so that
what an earlier call left there is seen by the next one; and the label arrays have a length, so that a label id that does not
fit raises.
-/

namespace Verif.Classification

open Verif.Shared

/-- Exceptions of `finalize`: the two of `evaluator.py` 281-284, and the `IndexError` of `running_max_fp[idx]` (`evaluator.py` 207)
when `index_to_label_override` has an id that is not below its length. -/
inductive RetryErr
  | empty
  | already
  | index
deriving DecidableEq

/-- One table of the intermediate cache (`evaluator.py` 196-240), arrays of length `n`: the running values, the rows written, and
whether the loop came to its end. Ids are not negative. -/
def rocKeysE (n : Nat) (tbl : List IRow) : List Nat → (Nat → LState) → (Nat → LState) × List RocRow × Bool
  | [], σ => (σ, [], true)
  | k :: ks, σ =>
    let rows := tbl.filter (fun r => decide (r.label = (k : Int)))
    if rows.isEmpty then rocKeysE n tbl ks σ
    else if n ≤ k then (σ, [], false)
    else
      let (s, out) := rocStep (σ k) rows
      let (σ', rest, ok) := rocKeysE n tbl ks (Function.update σ k s)
      (σ', out.map (fun x => ⟨k, x.1, x.2⟩) ++ rest, ok)

/-- All tables (`evaluator.py` 195-240). -/
def rocTablesE (n : Nat) (keys : List Nat) : List (List IRow) → (Nat → LState) → (Nat → LState) × List RocRow × Bool
  | [], σ => (σ, [], true)
  | tbl :: ts, σ =>
    let (σ', out, ok) := rocKeysE n tbl keys σ
    if ok then
      let (σ'', rest, ok') := rocTablesE n keys ts σ'
      (σ'', out ++ rest, ok')
    else (σ', out, false)

/-- `_create_rocauc_intermediate` after sorting (`evaluator.py` 188-259): the rows written before the end or the exception. -/
def rocCurveE (keys : List Nat) (n : Nat) (tables : List (List IRow)) : List RocRow × Bool :=
  let (σ, out, ok) := rocTablesE n keys tables (fun _ => LState.init)
  if ok then
    (out ++ (List.range n).filterMap (fun k =>
      if (σ k).last.1 ≠ (σ k).fp ∨ (σ k).last.2 ≠ (σ k).tp then some ⟨k, (σ k).fp, (σ k).tp⟩ else none), true)
  else (out, false)

/-- The three caches of a builder in memory (`evaluator.py` 55-66, `ephemeral.py`): main cache, intermediate cache, the ROC curve
rows in the table, and those in the writer's buffer, which `count_rows` does not see (`ephemeral.py` 30-32). -/
structure Caches where
  tables : List (List Row)
  inter : List IRow
  roc : List RocRow
  pending : List RocRow

/-- `finalize` (`evaluator.py` 261-318) on caches in memory. `sorted` is the sorted main cache and `fresh` what `compute.sort`
appends to the intermediate cache (`evaluator.py` 173-187); a cache in memory is read as one table. `m` is how many of the
ROC rows had left the writer's buffer when an exception occurred (which depends on the batch size). -/
def Caches.finalize (c : Caches) (sorted : List (List Row)) (fresh : List IRow) (override : Option (List (Int × String)))
    (m : Nat) : Caches × Except RetryErr EvalState :=
  if c.tables.flatten.length = 0 then (c, .error .empty)
  else if c.roc.length > 0 then (c, .error .already)
  else
    let labels := labelsOf (sorted.map (fun t => t.map labelCols)) override
    let inter := c.inter ++ fresh
    let (rows, ok) := rocCurveE (labels.map (fun x => x.1.toNat)) labels.length [inter]
    let written := c.pending ++ rows
    if ok then (⟨sorted, inter, c.roc ++ written, []⟩, .ok ⟨sorted, c.roc ++ written, labels⟩)
    else (⟨sorted, inter, c.roc ++ written.take m, written.drop m⟩, .error .index)

/-! ## The same as `Builder.finalize` when the ids fit -/

theorem rocKeysE_eq {n : Nat} {tbl : List IRow} {keys : List Nat} (h : ∀ k ∈ keys, k < n) (σ : Nat → LState) (pre : List RocRow) :
    (rocKeysE n tbl keys σ).2.2 = true ∧
    keys.foldl (fun (acc : (Nat → LState) × List RocRow) (k : Nat) =>
      let rows := tbl.filter (fun r => decide (r.label = (k : Int)))
      if rows.isEmpty then acc
      else
        let (s, out) := rocStep (acc.1 k) rows
        (Function.update acc.1 k s, acc.2 ++ out.map (fun x => ⟨k, x.1, x.2⟩))) (σ, pre) =
      ((rocKeysE n tbl keys σ).1, pre ++ (rocKeysE n tbl keys σ).2.1) := by
  induction keys generalizing σ pre with
  | nil => simp [rocKeysE]
  | cons k ks ih =>
    have hk := h k List.mem_cons_self
    have hks : ∀ k ∈ ks, k < n := fun k hk => h k (List.mem_cons_of_mem _ hk)
    rw [List.foldl_cons]
    by_cases he : (tbl.filter (fun r => decide (r.label = (k : Int)))).isEmpty
    · simp only [rocKeysE, he, if_true]
      exact ih hks σ pre
    · have hlt : ¬ n ≤ k := by omega
      simp only [rocKeysE, he, if_neg hlt, Bool.false_eq_true, if_false]
      obtain ⟨h1, h2⟩ := ih hks (Function.update σ k (rocStep (σ k) (tbl.filter (fun r => decide (r.label = (k : Int))))).1)
        (pre ++ (rocStep (σ k) (tbl.filter (fun r => decide (r.label = (k : Int))))).2.map (fun x => (⟨k, x.1, x.2⟩ : RocRow)))
      exact ⟨h1, by rw [h2, List.append_assoc]⟩

theorem rocTablesE_eq {n : Nat} {keys : List Nat} (h : ∀ k ∈ keys, k < n) (ts : List (List IRow)) (σ : Nat → LState)
    (pre : List RocRow) :
    (rocTablesE n keys ts σ).2.2 = true ∧
    ts.foldl (fun acc tbl =>
      let (σ, out) := rocTable keys acc.1 tbl
      (σ, acc.2 ++ out)) (σ, pre) = ((rocTablesE n keys ts σ).1, pre ++ (rocTablesE n keys ts σ).2.1) := by
  induction ts generalizing σ pre with
  | nil => simp [rocTablesE]
  | cons t ts ih =>
    obtain ⟨h1, h2⟩ := rocKeysE_eq (tbl := t) h σ []
    have h3 : rocTable keys σ t = ((rocKeysE n t keys σ).1, (rocKeysE n t keys σ).2.1) := by
      have := h2
      rw [List.nil_append] at this
      exact this
    rw [List.foldl_cons]
    simp only [rocTablesE, h1, if_true, h3]
    obtain ⟨h4, h5⟩ := ih (rocKeysE n t keys σ).1 (pre ++ (rocKeysE n t keys σ).2.1)
    exact ⟨h4, by rw [h5, List.append_assoc]⟩

theorem rocCurveE_eq {n : Nat} {keys : List Nat} (h : ∀ k ∈ keys, k < n) (ts : List (List IRow)) :
    rocCurveE keys n ts = (rocCurve keys n ts, true) := by
  obtain ⟨h1, h2⟩ := rocTablesE_eq h ts (fun _ => LState.init) []
  rw [List.nil_append] at h2
  unfold rocCurveE rocCurve rocTables
  rw [h2]
  simp [h1]

/-- **C35 (classification, on the three caches).** A fresh builder whose labels are ids below their number is finalized as by
`Builder.finalize`, and as soon as one row of the curve is stored every further call, with whatever arguments, raises
"data already finalized" and leaves all caches as they are. -/
theorem C35_classification_caches_partial (tables sorted : List (List Row)) (fresh : List IRow)
    (o : Option (List (Int × String))) (m : Nat)
    (hid : ∀ x ∈ labelsOf (sorted.map (fun t => t.map labelCols)) o, x.1.toNat
      < (labelsOf (sorted.map (fun t => t.map labelCols)) o).length) :
    (((⟨tables, [], [], []⟩ : Caches).finalize sorted fresh o m).2.toOption
      = ((⟨tables, []⟩ : Builder).finalize sorted [fresh] o).toOption.map Prod.snd) ∧
    ∀ (c : Caches), c.roc ≠ [] → c.tables.flatten ≠ [] → ∀ s f o' m', c.finalize s f o' m' = (c, .error .already) := by
  constructor
  · have hkeys : ∀ k ∈ (labelsOf (sorted.map (fun t => t.map labelCols)) o).map (fun x => x.1.toNat),
        k < (labelsOf (sorted.map (fun t => t.map labelCols)) o).length := by
      intro k hk
      obtain ⟨x, hx, rfl⟩ := List.mem_map.1 hk
      exact hid x hx
    unfold Caches.finalize Builder.finalize
    simp only [List.nil_append, rocCurveE_eq hkeys]
    split
    · rfl
    · simp [Except.toOption]
  · intro c hr ht s f o' m'
    unfold Caches.finalize
    rw [if_neg (by rw [List.length_eq_zero_iff]; exact ht), if_pos (List.length_pos_iff.2 hr)]

/-- The full claim: whatever the first `finalize` was called with and however it ended, a second one that succeeds reports the
ROCAUC of a single one. -/
def RetryHarmless : Prop :=
  ∀ (tables sorted : List (List Row)) (fresh : List IRow) (o : Option (List (Int × String))) (m m' : Nat) (e e' : EvalState),
    fresh.Perm (sorted.flatten.map irow) →
    ((⟨tables, [], [], []⟩ : Caches).finalize sorted fresh none m').2 = .ok e →
    (((⟨tables, [], [], []⟩ : Caches).finalize sorted fresh o m).1.finalize sorted fresh none m').2 = .ok e' →
    ∀ l, rocauc e'.tables [e'.roc] l = rocauc e.tables [e.roc] l

/-- ROCAUC of label 0 after the perfect classification of two images is finalized with `o` and then without an override; and how
the first call ended. -/
def retried (o : Option (List (Int × String))) : Except RetryErr Rat × Except RetryErr Rat :=
  let first := (⟨[twoRows], [], [], []⟩ : Caches).finalize [twoRows] twoInter o 0
  let second := first.1.finalize [twoRows] twoInter none 0
  (first.2.map (fun e => rocauc e.tables [e.roc] 0), second.2.map (fun e => rocauc e.tables [e.roc] 0))

/-- **C35 (classification), violation.** Two images, both classified correctly; ROCAUC is 1. Call `finalize` with the override
`{1: "b"}`: it raises an `IndexError`, having filled the intermediate cache. Call it again without: it succeeds and ROCAUC
is 3. With the empty override the first call succeeds, and so does the second, which reports 3. -/
theorem C35_classification_violation : ¬ RetryHarmless ∧
    (retried (some [(1, "b")]) matches (.error .index, .ok _)) ∧
    (retried (some [(1, "b")])).2.toOption = some 3 ∧
    (retried (some [])).2.toOption = some 3 ∧
    ((⟨[twoRows], [], [], []⟩ : Caches).finalize [twoRows] twoInter none 0).2.toOption.map
      (fun e => rocauc e.tables [e.roc] 0) = some 1 := by
  refine ⟨?_, by decide +kernel, by decide +kernel, by decide +kernel, by decide +kernel⟩
  intro h
  have := h [twoRows] [twoRows] twoInter (some [(1, "b")]) 0 0 _ _ (by decide +kernel) rfl rfl 0
  revert this
  decide +kernel

/-- Labels with ids below their number. -/
example : ∀ x ∈ labelsOf ([twoRows].map (fun t => t.map labelCols)) none, x.1.toNat
    < (labelsOf ([twoRows].map (fun t => t.map labelCols)) none).length := by decide +kernel

/-- The labels that are reached before the first one whose id does not fit: labels without rows are passed over. -/
def reached (n : Nat) (tbl : List IRow) (keys : List Nat) : List Nat :=
  keys.takeWhile (fun k => decide (k < n) || !(tbl.any (fun r => decide (r.label = (k : Int)))))

theorem rocKeysE_reached {n : Nat} {tbl : List IRow} (keys : List Nat) (σ : Nat → LState) (pre : List RocRow) :
    ((rocKeysE n tbl keys σ).2.2 = true ↔ reached n tbl keys = keys) ∧
    ((reached n tbl keys).foldl (fun (acc : (Nat → LState) × List RocRow) (k : Nat) =>
      let rows := tbl.filter (fun r => decide (r.label = (k : Int)))
      if rows.isEmpty then acc
      else
        let (s, out) := rocStep (acc.1 k) rows
        (Function.update acc.1 k s, acc.2 ++ out.map (fun x => ⟨k, x.1, x.2⟩))) (σ, pre)).2 =
      pre ++ (rocKeysE n tbl keys σ).2.1 := by
  induction keys generalizing σ pre with
  | nil => simp [rocKeysE, reached]
  | cons k ks ih =>
    unfold reached
    rw [List.takeWhile_cons]
    have hany : (tbl.filter (fun r => decide (r.label = (k : Int)))).isEmpty = !(tbl.any (fun r => decide (r.label = (k : Int)))) := by
      rw [Bool.eq_iff_iff, List.isEmpty_iff, List.filter_eq_nil_iff]
      simp
    by_cases he : (tbl.filter (fun r => decide (r.label = (k : Int)))).isEmpty
    · rw [← hany, he, Bool.or_true, if_pos rfl, List.foldl_cons]
      simp only [rocKeysE, he, if_true, List.cons.injEq, true_and]
      exact ih σ pre
    · by_cases hlt : n ≤ k
      · rw [← hany, Bool.eq_false_iff.2 he, decide_eq_false (by omega)]
        simp [rocKeysE, he, hlt]
      · rw [decide_eq_true (show k < n by omega), Bool.true_or, if_pos rfl, List.foldl_cons]
        simp only [rocKeysE, he, if_neg hlt, Bool.false_eq_true, if_false, List.cons.injEq, true_and]
        obtain ⟨h1, h2⟩ := ih (Function.update σ k (rocStep (σ k) (tbl.filter (fun r => decide (r.label = (k : Int))))).1)
          (pre ++ (rocStep (σ k) (tbl.filter (fun r => decide (r.label = (k : Int))))).2.map (fun x => (⟨k, x.1, x.2⟩ : RocRow)))
        exact ⟨h1, by rw [← List.append_assoc]; exact h2⟩

/-- **C35 (classification, after an exception).** A `finalize` that raises an `IndexError` leaves the intermediate cache filled and, in the
table or in the buffer of the writer, the rows of the labels before the first one that does not fit. If none of them
had left the buffer, a later call that succeeds reads the intermediate rows of both calls and reports a curve that starts with the rows
of the failed one: nothing is cleared. -/
theorem C35_classification_leftovers (tables sorted : List (List Row)) (fresh : List IRow) (o : Option (List (Int × String)))
    (m : Nat) (h : ((⟨tables, [], [], []⟩ : Caches).finalize sorted fresh o m).2 = .error .index) :
    let labels := labelsOf (sorted.map (fun t => t.map labelCols)) o
    let left := (rocTable (reached labels.length fresh (labels.map (fun x => x.1.toNat))) (fun _ => LState.init) fresh).2
    let c := ((⟨tables, [], [], []⟩ : Caches).finalize sorted fresh o m).1
    c.tables = sorted ∧ c.inter = fresh ∧ c.roc ++ c.pending = left ∧ c.roc = left.take m ∧
    ∀ s f o' m' e, m = 0 → (c.finalize s f o' m').2 = .ok e →
      ∃ curve, rocCurveE ((labelsOf (s.map (fun t => t.map labelCols)) o').map (fun x => x.1.toNat))
        (labelsOf (s.map (fun t => t.map labelCols)) o').length [fresh ++ f] = (curve, true) ∧ e.roc = left ++ curve := by
  intro labels left c
  have hc : (rocCurveE (labels.map (fun x => x.1.toNat)) labels.length [fresh]).2 = false ∧
      c = ⟨sorted, fresh, left.take m, left.drop m⟩ := by
    have hl : (rocKeysE labels.length fresh (labels.map (fun x => x.1.toNat)) (fun _ => LState.init)).2.1 = left := by
      have := (rocKeysE_reached (n := labels.length) (tbl := fresh) (labels.map (fun x => x.1.toNat)) (fun _ => LState.init) []).2
      rw [List.nil_append] at this
      exact this.symm
    have hf : (rocCurveE (labels.map (fun x => x.1.toNat)) labels.length [fresh]).2 = false := by
      rw [← Bool.not_eq_true]
      intro ht
      unfold Caches.finalize at h
      simp only [List.nil_append] at h
      split at h
      · simp at h
      · split at h
        · simp at h
        · simp at h
    have hr : (rocCurveE (labels.map (fun x => x.1.toNat)) labels.length [fresh]).1 = left := by
      have hk : (rocKeysE labels.length fresh (labels.map (fun x => x.1.toNat)) (fun _ => LState.init)).2.2 = false := by
        rw [← Bool.not_eq_true]
        intro ht
        unfold rocCurveE rocTablesE rocTablesE at hf
        simp [ht] at hf
      rw [← hl]
      unfold rocCurveE rocTablesE
      simp [hk]
    refine ⟨hf, ?_⟩
    show ((⟨tables, [], [], []⟩ : Caches).finalize sorted fresh o m).1 = _
    unfold Caches.finalize at h ⊢
    simp only [List.nil_append] at h ⊢
    split at h
    · simp at h
    · rename_i h0
      rw [if_neg h0, if_neg (by simp)]
      change (if (rocCurveE (labels.map (fun x => x.1.toNat)) labels.length [fresh]).2 = true then _ else _ : Caches × Except RetryErr EvalState).1 = _
      rw [if_neg (by rw [hf]; simp)]
      change (⟨sorted, fresh, (rocCurveE (labels.map (fun x => x.1.toNat)) labels.length [fresh]).1.take m, (rocCurveE (labels.map (fun x => x.1.toNat)) labels.length [fresh]).1.drop m⟩ : Caches) = _
      rw [hr]
  obtain ⟨hf, hc⟩ := hc
  rw [hc]
  refine ⟨rfl, rfl, List.take_append_drop _ _, rfl, ?_⟩
  intro s f o' m' e hm he
  subst hm
  unfold Caches.finalize at he
  simp only [List.take_zero, List.drop_zero, List.length_nil, lt_irrefl, if_false, List.nil_append] at he
  split at he
  · simp at he
  · set q := rocCurveE ((labelsOf (s.map (fun t => t.map labelCols)) o').map (fun x => x.1.toNat))
        (labelsOf (s.map (fun t => t.map labelCols)) o').length [fresh ++ f] with hq
    obtain ⟨curve, ok⟩ := q
    cases ok with
    | false => simp at he
    | true =>
      simp only [if_true, Except.ok.injEq] at he
      exact ⟨curve, rfl, by rw [← he]⟩

/-- Data of the labels 0, 1 and 2, and an override that forgets label 1: label 2 does not fit, and rows of label 0 are left. -/
example : ((⟨[twoRows], [], [], []⟩ : Caches).finalize [twoRows] (twoInter ++ [⟨2, 1 / 20, false⟩]) (some [(0, "a"), (2, "c")]) 0).2 = .error .index ∧
    (rocTable (reached 2 (twoInter ++ [⟨2, 1 / 20, false⟩]) [0, 2]) (fun _ => LState.init) (twoInter ++ [⟨2, 1 / 20, false⟩])).2 ≠ [] :=
  ⟨rfl, by decide +kernel⟩

end Verif.Classification
