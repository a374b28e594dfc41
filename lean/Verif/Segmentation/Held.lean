import Verif.Cache.HandleProps
import Verif.Segmentation.ReportProps

/-!
# C103: segmentation evaluators whose loader is used further

`finalize` (`semantic_segmentation/evaluator.py` 117-150) leaves the writer with the loader and gives the evaluator a reader. An
evaluator over memory keeps the data it was made of; an evaluator over files takes in what the loader writes later.
-/

namespace Verif.Segmentation

open Verif.Cache (AnyW Handle SOp WOp FileW MemW ReadErr written)
open Verif.Shared

/-- `Evaluator.__init__` (`evaluator.py` 154-162): the reader and the labels. -/
structure HeldEval where
  handle : Handle SRow
  labels : List (Int × String)

/-- What an evaluator computes with while the writer of its cache is in the given state. -/
def HeldEval.evaluator (h : HeldEval) (w : AnyW SRow) : Except ReadErr Evaluator :=
  match h.handle.tables w with
  | .error e => .error e
  | .ok ts => .ok ⟨ts, h.labels⟩

/-- What `finalize` may raise. -/
inductive HoldErr
  | empty
  | read (e : ReadErr)

/-- `finalize` (`evaluator.py` 117-150), without override, on a loader with this writer. -/
def hold (w : AnyW SRow) : Except HoldErr (AnyW SRow × HeldEval) :=
  match w.toReader.2.tables w.toReader.1 with
  | .error e => .error (.read e)
  | .ok ts =>
    match finalize ts none with
    | .error .empty => .error .empty
    | .ok e => .ok (w.toReader.1, ⟨w.toReader.2, e.labels⟩)

/-- The writer after `add_data` calls on a loader (`loader.py` 202: one `write_rows` for each segmentation). -/
def writes (l : Loader) (calls : List (List Seg)) (w : AnyW SRow) : AnyW SRow :=
  ((((l.addAll calls).rows.drop l.rows.length).map WOp.rows).map (SOp.call (K := Nat))).foldl AnyW.sstep w

theorem addAll_rows (calls : List (List Seg)) (l : Loader) : ∃ rest, (l.addAll calls).rows = l.rows ++ rest := by
  have one : ∀ (ss : List Seg) (l : Loader), ∃ rest, (l.addData ss).rows = l.rows ++ rest := by
    intro ss
    induction ss with
    | nil => exact fun l => ⟨[], (List.append_nil _).symm⟩
    | cons s ss ih =>
      intro l
      obtain ⟨rest, h⟩ := ih (l.addOne s)
      exact ⟨_, h.trans (List.append_assoc _ _ _)⟩
  induction calls generalizing l with
  | nil => exact ⟨[], (List.append_nil _).symm⟩
  | cons c calls ih =>
    obtain ⟨r1, h1⟩ := one c l
    obtain ⟨r2, h2⟩ := ih (l.addData c)
    exact ⟨r1 ++ r2, by rw [← List.append_assoc, ← h1, ← h2]; rfl⟩

theorem drop_rows (l : Loader) (more : List (List Seg)) :
    l.rows ++ (l.addAll more).rows.drop l.rows.length = (l.addAll more).rows := by
  obtain ⟨rest, h⟩ := addAll_rows more l
  rw [h, List.drop_left]

theorem payload_rows (rows : List (List SRow)) :
    ((rows.map WOp.rows).map (SOp.call (K := Nat))).flatMap SOp.payload = rows.flatten := by
  induction rows with
  | nil => rfl
  | cons r rows ih => simp only [List.map_cons, List.flatMap_cons, ih, List.flatten_cons]; rfl

theorem written_rows (rows : List (List SRow)) : written (rows.map WOp.rows) = rows.flatten := by
  induction rows with
  | nil => rfl
  | cons r rows ih =>
    simp only [written, List.map_cons, List.flatMap_cons, List.flatten_cons] at ih ⊢
    rw [ih]
    rfl

theorem evaluator_ok {h : HeldEval} {w : AnyW SRow} {ts : List (List SRow)} (e : h.handle.tables w = .ok ts) :
    h.evaluator w = .ok ⟨ts, h.labels⟩ := by
  unfold HeldEval.evaluator
  rw [e]

theorem hold_ok {w : AnyW SRow} {ts : List (List SRow)} (h : w.toReader.2.tables w.toReader.1 = .ok ts) (hne : ts.flatten ≠ []) :
    hold w = .ok (w.toReader.1, ⟨w.toReader.2, extractLabels (ts.map (fun t => t.map labelCols))⟩) := by
  have hf : finalize ts none = .ok ⟨ts, extractLabels (ts.map (fun t => t.map labelCols))⟩ := by
    unfold finalize
    rw [if_neg (fun hl => hne (List.length_eq_zero_iff.1 hl))]
    rfl
  unfold hold
  rw [h]
  dsimp only
  rw [hf]

/-- **C103 (segmentation, memory).** An evaluator over memory computes with the segmentations that were added before it was made
and with their labels, whatever is added to the loader later. -/
theorem C103_segmentation_memory (batchSize : Nat) (calls : List (List Seg)) (hne : (Loader.init.addAll calls).rows.flatten ≠ []) :
    ∃ w h tables, hold (writes .init calls (.mem (MemW.create batchSize))) = .ok (w, h) ∧
      tables.flatten.Perm (Loader.init.addAll calls).rows.flatten ∧
      ∀ more : List (List Seg), h.evaluator (writes (Loader.init.addAll calls) more w) =
        .ok ⟨tables, extractLabels (tables.map (fun t => t.map labelCols))⟩ := by
  obtain ⟨t, hp, ht⟩ := Verif.Cache.C103_memory (K := Nat) batchSize
    (((((Loader.init.addAll calls).rows.drop Loader.init.rows.length).map WOp.rows).map (SOp.call (K := Nat))))
  rw [payload_rows] at hp
  have hp' : t.Perm (Loader.init.addAll calls).rows.flatten := hp
  have hne' : [t].flatten ≠ [] := by
    simp only [List.flatten_cons, List.flatten_nil, List.append_nil]
    intro h0
    rw [h0] at hp'
    exact hne hp'.nil_eq.symm
  exact ⟨_, _, [t], hold_ok (ht []) hne', by simpa using hp', fun more => evaluator_ok (ht _)⟩

/-- **C103 (segmentation, files).** An evaluator over files computes with the segmentations that were added before it was made; once
more are added and the loader is finalized again, it computes with all of them, but with the labels of the first ones. -/
theorem C103_segmentation_files (batchSize rowsPerFile : Nat) (hb : 0 < batchSize) (calls : List (List Seg))
    (hne : (Loader.init.addAll calls).rows.flatten ≠ []) :
    ∃ w h first, hold (writes .init calls (.file (FileW.create batchSize rowsPerFile))) = .ok (w, h) ∧
      first.flatten.Perm (Loader.init.addAll calls).rows.flatten ∧
      h.evaluator w = .ok ⟨first, extractLabels (first.map (fun t => t.map labelCols))⟩ ∧
      ∀ more : List (List Seg), ∃ w' h' all, hold (writes (Loader.init.addAll calls) more w) = .ok (w', h') ∧
        all.flatten.Perm (Loader.init.addAll (calls ++ more)).rows.flatten ∧
        h.evaluator w' = .ok ⟨all, extractLabels (first.map (fun t => t.map labelCols))⟩ ∧
        h'.evaluator w' = .ok ⟨all, extractLabels (all.map (fun t => t.map labelCols))⟩ := by
  obtain ⟨first, h1, hp, hmore⟩ := Verif.Cache.C103_files (K := Nat) batchSize rowsPerFile hb []
    (((((Loader.init.addAll calls).rows.drop Loader.init.rows.length).map WOp.rows).map (SOp.call (K := Nat))))
  rw [payload_rows] at hp
  have hp' : first.flatten.Perm (Loader.init.addAll calls).rows.flatten := hp
  have hne' : first.flatten ≠ [] := by
    intro h0
    rw [h0] at hp'
    exact hne hp'.nil_eq.symm
  obtain ⟨u, hu⟩ : ∃ u, writes .init calls (.file (FileW.create batchSize rowsPerFile)) = .file u := ⟨_, Verif.Cache.file_steps _ _⟩
  change (AnyW.toReader (writes .init calls (.file (FileW.create batchSize rowsPerFile)))).2.tables
    (AnyW.toReader (writes .init calls (.file (FileW.create batchSize rowsPerFile)))).1 = _ at h1
  refine ⟨_, _, first, hold_ok h1 hne', hp', evaluator_ok h1, fun more => ?_⟩
  obtain ⟨new, h2, h3⟩ := (hmore (((Loader.init.addAll calls).addAll more).rows.drop (Loader.init.addAll calls).rows.length |>.map WOp.rows)).2
  rw [written_rows] at h3
  have hall : (first ++ new).flatten.Perm (Loader.init.addAll (calls ++ more)).rows.flatten := by
    have e : Loader.init.addAll (calls ++ more) = (Loader.init.addAll calls).addAll more := by
      unfold Loader.addAll
      rw [List.foldl_append]
    rw [e, ← drop_rows (Loader.init.addAll calls) more, List.flatten_append, List.flatten_append, h3]
    exact hp'.append_right _
  have hne2 : (first ++ new).flatten ≠ [] := by
    rw [List.flatten_append]
    simp [hne']
  change (AnyW.toReader (writes .init calls (.file (FileW.create batchSize rowsPerFile)))).2.tables
    (AnyW.sstep (writes (Loader.init.addAll calls) more
      (AnyW.toReader (writes .init calls (.file (FileW.create batchSize rowsPerFile)))).1) _) = _ at h2
  rw [hu] at h2 ⊢
  obtain ⟨v, hv⟩ : ∃ v, writes (Loader.init.addAll calls) more (AnyW.toReader (.file u)).1 = .file v :=
    ⟨_, Verif.Cache.file_calls _ _⟩
  rw [hv] at h2 ⊢
  exact ⟨_, _, first ++ new, hold_ok h2 hne2, hall, evaluator_ok h2, evaluator_ok h2⟩

/-- An image whose labelled pixel is found; in the next one it is not. -/
def foundSeg : Seg := ⟨"a", 2, [⟨[true, false], "x", none⟩], [⟨[true, false], "x", none⟩], none⟩

/-- The second image. -/
def missedSeg : Seg := ⟨"b", 2, [⟨[true, false], "x", none⟩], [⟨[false, true], "x", none⟩], none⟩

/-- **C103 (segmentation), violation.** An evaluator over files with all pixels classified correctly; after the loader takes one more
image (each call writes a file here), the same evaluator gives an accuracy of 1/2. -/
theorem C103_segmentation_violation :
    let c := FileW.create 1 1
    ∃ w h, hold (writes .init [[foundSeg]] (.file c)) = .ok (w, h) ∧
      ((h.evaluator w).toOption.bind (fun e => (e.report none).toOption.map Report.accuracy)) =
        some [⟨"Accuracy", .number (some 1), none⟩] ∧
      ((h.evaluator (writes (Loader.init.addAll [[foundSeg]]) [[missedSeg]] w)).toOption.bind
        (fun e => (e.report none).toOption.map Report.accuracy)) = some [⟨"Accuracy", .number (some (1 / 2)), none⟩] := by
  intro c
  have e1 : (AnyW.toReader (writes .init [[foundSeg]] (.file c))).2.tables (AnyW.toReader (writes .init [[foundSeg]] (.file c))).1 =
      .ok (Loader.init.addAll [[foundSeg]]).rows := by
    refine (Verif.Cache.shown rfl).trans ?_
    rw [FileW.orderedTables_perm (by decide +kernel) (List.Perm.refl _)]
    decide +kernel
  have e2 : (AnyW.toReader (writes .init [[foundSeg]] (.file c))).2.tables (writes (Loader.init.addAll [[foundSeg]]) [[missedSeg]]
      (AnyW.toReader (writes .init [[foundSeg]] (.file c))).1) = .ok (Loader.init.addAll [[foundSeg], [missedSeg]]).rows := by
    refine (Verif.Cache.shown rfl).trans ?_
    rw [FileW.orderedTables_perm (by decide +kernel) (List.Perm.refl _)]
    decide +kernel
  refine ⟨_, _, hold_ok e1 (by decide +kernel), ?_, ?_⟩
  · rw [evaluator_ok (h := ⟨_, _⟩) e1]
    decide +kernel
  · rw [evaluator_ok (h := ⟨_, _⟩) e2]
    decide +kernel

/-- The hypothesis of the theorems is met by this image. -/
example : (Loader.init.addAll [[foundSeg]]).rows.flatten ≠ [] := by decide +kernel

end Verif.Segmentation
