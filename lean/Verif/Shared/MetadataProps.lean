import Mathlib.Data.List.Nodup
import Verif.Shared.Metadata
import Verif.Cache.LifecycleProps

/-!
# C49: metadata fields survive storage and never shadow reserved columns
-/

namespace Verif.Metadata

open Verif.Cache

variable {τ : Type}

/-! ## Schemas -/

/-- Every field type given as a string is a known alias. -/
def Known (A : Arrow τ) (l : List (String × FieldType τ)) : Prop :=
  ∀ k s, (k, FieldType.name s) ∈ l → ∃ t, A.aliasOf s = some t

/-- The schema `s` declares exactly the fields `l`, in order, under the types they stand for. -/
def Declares (A : Arrow τ) (l : List (String × FieldType τ)) (s : Schema τ) : Prop :=
  List.Forall₂ (fun f g => g.1 = f.1 ∧ f.2.resolve A = some g.2) l s

theorem paSchema_ok {A : Arrow τ} {l : List (String × FieldType τ)} {s : Schema τ} :
    paSchema A l = .ok s ↔ Declares A l s := by
  induction l generalizing s with
  | nil => simp [paSchema, Declares, eq_comm]
  | cons f l ih =>
    obtain ⟨k, v⟩ := f
    simp only [paSchema, Declares, List.forall₂_cons_left_iff]
    cases hv : v.resolve A with
    | none => simp
    | some t =>
      cases hp : paSchema A l with
      | error e =>
        simp only [reduceCtorEq, false_iff]
        rintro ⟨g, s', -, h, -⟩
        have := ih.2 h
        rw [hp] at this; simp at this
      | ok s0 =>
        simp only [Except.ok.injEq]
        constructor
        · rintro rfl
          exact ⟨(k, t), s0, ⟨rfl, rfl⟩, ih.1 hp, rfl⟩
        · rintro ⟨⟨k', t'⟩, s', ⟨h1, h2⟩, h3, rfl⟩
          have := ih.2 h3
          rw [hp] at this
          simp_all

theorem paSchema_error {A : Arrow τ} {l : List (String × FieldType τ)} {e : SchemaErr}
    (h : paSchema A l = .error e) : e = .noAlias ∧ ¬ Known A l := by
  induction l with
  | nil => simp [paSchema] at h
  | cons f l ih =>
    obtain ⟨k, v⟩ := f
    simp only [paSchema] at h
    cases hv : v.resolve A with
    | none =>
      rw [hv] at h
      refine ⟨by simpa using h.symm, fun hk => ?_⟩
      cases v with
      | name s =>
        obtain ⟨t, ht⟩ := hk k s (by simp)
        simp [FieldType.resolve, ht] at hv
      | type t => simp [FieldType.resolve] at hv
    | some t =>
      rw [hv] at h
      cases hp : paSchema A l with
      | ok s => rw [hp] at h; simp at h
      | error e' =>
        rw [hp] at h
        have he : e' = e := by simpa using h
        subst he
        obtain ⟨h1, h2⟩ := ih hp
        exact ⟨h1, fun hk => h2 fun k s hm => hk k s (List.mem_cons_of_mem _ hm)⟩

theorem paSchema_total {A : Arrow τ} {l : List (String × FieldType τ)} (h : Known A l) :
    ∃ s, paSchema A l = .ok s := by
  cases hp : paSchema A l with
  | ok s => exact ⟨s, rfl⟩
  | error e => exact absurd h (paSchema_error hp).2

theorem declares_asArg {A : Arrow τ} {s s' : Schema τ} (h : Declares A (asArg s) s') : s' = s := by
  induction s generalizing s' with
  | nil => simpa [Declares, asArg] using h
  | cons f s ih =>
    simp only [Declares, asArg, List.map_cons, List.forall₂_cons_left_iff] at h
    obtain ⟨g, s0, ⟨h1, h2⟩, h3, rfl⟩ := h
    rw [ih (s' := s0) h3]
    simp only [FieldType.resolve, Option.some.injEq] at h2
    rw [show g = f from Prod.ext h1 h2.symm]

theorem declares_append {A : Arrow τ} {l l' : List (String × FieldType τ)} {s : Schema τ}
    (h : Declares A (l ++ l') s) :
    ∃ s1 s2, s = s1 ++ s2 ∧ Declares A l s1 ∧ Declares A l' s2 := by
  induction l generalizing s with
  | nil => exact ⟨[], s, rfl, by simp [Declares], h⟩
  | cons f l ih =>
    simp only [Declares, List.cons_append, List.forall₂_cons_left_iff] at h
    obtain ⟨g, s0, h1, h2, rfl⟩ := h
    obtain ⟨s1, s2, rfl, h3, h4⟩ := ih h2
    exact ⟨g :: s1, s2, rfl, List.Forall₂.cons h1 h3, h4⟩

theorem known_asArg (A : Arrow τ) (s : Schema τ) : Known A (asArg s) := by
  intro k x h
  simp [asArg] at h

theorem known_append {A : Arrow τ} {l l' : List (String × FieldType τ)} :
    Known A (l ++ l') ↔ Known A l ∧ Known A l' := by
  constructor
  · intro h
    exact ⟨fun k s hm => h k s (by simp [hm]), fun k s hm => h k s (by simp [hm])⟩
  · rintro ⟨h1, h2⟩ k s hm
    rcases List.mem_append.1 hm with hm | hm
    · exact h1 k s hm
    · exact h2 k s hm

theorem conflicting_iff {R : List String} {m : List (String × FieldType τ)} :
    conflicting R m = true ↔ ∃ f ∈ m, f.1 ∈ R := by
  simp [conflicting]

/-- Some field of the declaration is called like one of the names. -/
def Uses (names : List String) (m : Fields τ) : Prop := ∃ f ∈ listed m, f.1 ∈ names

/-- Columns the detailed detection cache owns. -/
def detailedColumns : List String :=
  ["datum_uid", "datum_id", "gt_uid", "gt_id", "gt_label", "gt_label_id", "pd_uid", "pd_id",
   "pd_label", "pd_label_id", "pd_score", "iou"]

/-- Columns owned by either cache of the detection evaluator. -/
def detectionColumns : List String := detailedColumns ++ ["iou_prev"]

/-- Columns the classification cache owns. -/
def clsColumns : List String :=
  ["datum_uid", "datum_id", "gt_label", "gt_label_id", "pd_label", "pd_label_id", "pd_score",
   "pd_winner", "match"]

/-- Columns the segmentation cache owns. -/
def segColumns : List String :=
  ["datum_uid", "datum_id", "gt_label", "gt_label_id", "pd_label", "pd_label_id", "count"]

/-! ## Rejection of reserved names -/

/-- **C49, classification.** A declaration that uses a reserved column is rejected and nothing on
disk changes, whatever is found at the path. -/
theorem C49_cls_reserved (A : Arrow τ) (B : Builtin τ) (o : Opts) (m : Fields τ) (r : Root τ)
    (h : Uses clsColumns m) :
    clsPersistent A B o m r = (r, .error (.schema .conflict)) := by
  have : conflicting ((clsReserved B).map (·.1)) (listed m) = true := by
    rw [conflicting_iff]; exact h
  simp [clsPersistent, clsSchema, this, schemaThenCreate, andThen]

/-- **C49, segmentation.** -/
theorem C49_seg_reserved (A : Arrow τ) (B : Builtin τ) (o : Opts) (m : Fields τ) (r : Root τ)
    (h : Uses segColumns m) :
    segPersistent A B o m r = (r, .error (.schema .conflict)) := by
  have : conflicting ((segReserved B).map (·.1)) (listed m) = true := by
    rw [conflicting_iff]; exact h
  simp [segPersistent, segSchema, this, schemaThenCreate, andThen]

/-- **C49, detection, rejection part in full**: every declaration that uses a column of the detailed or
the ranked cache is rejected with nothing changed on disk. -/
def DetectionRejectsCleanly (τ : Type) : Prop :=
  ∀ (A : Arrow τ) (B : Builtin τ) (o : Opts) (m : Fields τ) (r : Root τ),
    Uses detectionColumns m → detPersistent A B o m r = (r, .error (.schema .conflict))

/-- **C49 (partial), detection.** True for the columns of the detailed cache. What is missing is
`iou_prev`, which only the ranked schema reserves: `C49_reserved_violation`. -/
theorem C49_det_reserved_partial (A : Arrow τ) (B : Builtin τ) (o : Opts) (m : Fields τ)
    (r : Root τ) (h : Uses detailedColumns m) :
    detPersistent A B o m r = (r, .error (.schema .conflict)) := by
  have : conflicting ((detailedReserved B).map (·.1)) (listed m) = true := by
    rw [conflicting_iff]; exact h
  simp [detPersistent, detailedSchema, this, schemaThenCreate, andThen]

/-- A field named `iou_prev` of a known type passes the first check, so the detailed cache is already
on disk when the second check rejects it. -/
theorem det_iou_prev (A : Arrow τ) (B : Builtin τ) (o : Opts) (t : τ) :
    ∃ r', detPersistent A B o (some [("iou_prev", .type t)]) .missing =
        (r', .error (.schema .conflict)) ∧
      Life.load (r'.caches "detailed") = Life.load (Life.Node.dir ⟨[], some (.full
        ⟨o.batchSize, o.rowsPerFile, o.compression, detailedReserved B ++ [("iou_prev", t)]⟩), []⟩) := by
  refine ⟨_, rfl, ?_⟩
  simp only [Root.setCache, Root.caches, Function.update_self]
  rfl

/-- **C49 violation, detection.** The declaration `[("iou_prev", ...)]` is rejected only after the
detailed cache was created. -/
theorem C49_reserved_violation : ¬ DetectionRejectsCleanly Unit := by
  intro h
  have h1 := h ⟨fun _ => "t", fun _ => none⟩ ⟨(), (), (), (), ()⟩ ⟨1, 1, "snappy"⟩
    (some [("iou_prev", .type ())]) .missing ⟨_, by simp [listed]; rfl, by decide⟩
  obtain ⟨r', h2, h3⟩ := det_iou_prev ⟨fun _ => "t", fun _ => none⟩
    (⟨(), (), (), (), ()⟩ : Builtin Unit) ⟨1, 1, "snappy"⟩ ()
  rw [h1] at h2
  have h4 : Root.missing = r' := congrArg Prod.fst h2
  subst h4
  simp [Root.caches, Life.load] at h3

/-- The state the rejected call leaves behind blocks the corrected one: whatever declaration is used
next at this path, the call fails. -/
theorem C49_retry_violation (A : Arrow τ) (B : Builtin τ) (o : Opts) (t : τ) (m : Fields τ) :
    ∃ r', detPersistent A B o (some [("iou_prev", .type t)]) .missing =
        (r', .error (.schema .conflict)) ∧
      ∀ o' : Opts, (detPersistent A B o' m r').2 ≠ .ok () := by
  refine ⟨_, rfl, fun o' => ?_⟩
  simp only [detPersistent, schemaThenCreate]
  cases detailedSchema A B m with
  | error e => simp [andThen]
  | ok s =>
    simp [createCache, Root.setCache, Root.caches, Life.create, Life.mkAndWrite, Life.final, andThen]

/-! ## Success and reload -/

/-- The values of the configuration can be loaded again (C09). -/
def Opts.Valid (o : Opts) : Prop := 0 < o.batchSize ∧ 0 < o.rowsPerFile ∧ o.compression ≠ ""

/-- Names in the file, in order. -/
theorem dictSet_fresh {d : List (String × String)} {k v : String} (h : k ∉ d.map (·.1)) :
    dictSet d k v = d ++ [(k, v)] := by
  induction d with
  | nil => rfl
  | cons x d ih =>
    simp only [List.map_cons, List.mem_cons, not_or] at h
    simp [dictSet, Ne.symm h.1, ih h.2]

theorem foldl_dictSet_fresh (A : Arrow τ) (l : List (String × FieldType τ))
    (d : List (String × String)) (h : (d.map (·.1) ++ l.map (·.1)).Nodup) :
    l.foldl (fun d f => dictSet d f.1 (f.2.str A)) d = d ++ l.map fun f => (f.1, f.2.str A) := by
  induction l generalizing d with
  | nil => simp
  | cons f l ih =>
    have hf : f.1 ∉ d.map (·.1) := by
      intro hm
      have := List.nodup_append.1 h
      exact this.2.2 _ hm _ (by simp) rfl
    rw [List.foldl_cons, dictSet_fresh hf, ih]
    · simp
    · simpa using h

/-- Distinct names: the encoded dict lists the fields in their order. -/
theorem encode_nodup (A : Arrow τ) (m : Fields τ) (h : ((listed m).map (·.1)).Nodup) :
    encode A m = (listed m).map fun f => (f.1, f.2.str A) := by
  unfold encode
  rw [foldl_dictSet_fresh A _ _ (by simpa using h)]
  simp

/-- The conclusion of a creation at a free path followed by a load, for one of the evaluators. -/
def CreatesAndLoads (A : Arrow τ) (m : Fields τ) (persistent : Root τ → Root τ × Except Err Unit)
    (names : List String) (schemas : Schema τ → List (Schema τ)) : Prop :=
  ∃ r' declared, persistent .missing = (r', .ok ()) ∧ Declares A (listed m) declared ∧
    loadEvaluator names r' = .ok (schemas declared, some (decode (encode A m)))

/-- Outcome of creation at a free path. -/
theorem createCache_missing (o : Opts) (name : String) (s : Schema τ) (r : Root τ)
    (hr : r ≠ .file) (hn : r.caches name = .missing) :
    createCache o name s r = (r.setCache name (.dir ⟨[], some (.full
      ⟨o.batchSize, o.rowsPerFile, o.compression, s⟩), []⟩), .ok ()) := by
  cases r with
  | file => exact absurd rfl hr
  | missing => rfl
  | dir c mf =>
    simp only [Root.caches] at hn
    simp [createCache, Root.caches, hn, Life.create, Life.mkAndWrite, Life.final]

theorem load_full {o : Opts} (h : o.Valid) (s : Schema τ) :
    Life.load (Life.Node.dir ⟨[], some (.full ⟨o.batchSize, o.rowsPerFile, o.compression, s⟩), []⟩)
      = .ok ⟨o.batchSize, o.rowsPerFile, o.compression, s⟩ := by
  obtain ⟨h1, h2, h3⟩ := h
  simp [Life.load, Nat.pos_iff_ne_zero.1 h1, Nat.pos_iff_ne_zero.1 h2, h3]

/-- The node of a freshly created cache. -/
def fresh (o : Opts) (s : Schema τ) : Life.Node (Schema τ) :=
  .dir ⟨[], some (.full ⟨o.batchSize, o.rowsPerFile, o.compression, s⟩), []⟩

theorem schema_of {A : Arrow τ} {R R' : Schema τ} {m : Fields τ} (hk : Known A (listed m)) :
    ∃ d, Declares A (listed m) d ∧
      paSchema A (asArg R ++ listed m ++ asArg R') = .ok (R ++ d ++ R') := by
  have hk' : Known A (asArg R ++ listed m ++ asArg R') :=
    known_append.2 ⟨known_append.2 ⟨known_asArg A R, hk⟩, known_asArg A R'⟩
  obtain ⟨s, hs⟩ := paSchema_total hk'
  obtain ⟨s1, s2, rfl, h1, h2⟩ := declares_append (paSchema_ok.1 hs)
  obtain ⟨s3, s4, rfl, h3, h4⟩ := declares_append h1
  rw [declares_asArg h3, declares_asArg h2] at hs
  exact ⟨s4, h4, hs⟩

theorem declares_unique {A : Arrow τ} {l : List (String × FieldType τ)} {s s' : Schema τ}
    (h : Declares A l s) (h' : Declares A l s') : s = s' := by
  have h1 := paSchema_ok.2 h
  rw [paSchema_ok.2 h'] at h1
  simpa using h1.symm

theorem not_conflicting {R : List String} {m : Fields τ} (h : ¬ Uses R m) :
    conflicting R (listed m) = false := by
  cases hc : conflicting R (listed m) with
  | false => rfl
  | true => exact absurd (conflicting_iff.1 hc) h

/-- **C49, detection: creation and reload.** At a free path, a declaration without reserved names and
with known types succeeds; loading gives caches whose columns are the reserved ones and the declared
ones under the declared types, and the metadata fields as encoded. -/
theorem C49_det_roundtrip (A : Arrow τ) (B : Builtin τ) (o : Opts) (m : Fields τ) (ho : o.Valid)
    (hu : ¬ Uses detectionColumns m) (hk : Known A (listed m)) :
    CreatesAndLoads A m (detPersistent A B o m) detNames fun d =>
      [detailedReserved B ++ d, rankedReserved B ++ d ++ [("iou_prev", B.float64)]] := by
  obtain ⟨d, hd, h1⟩ := schema_of (R := detailedReserved B) (R' := []) hk
  obtain ⟨d', hd', h2⟩ := schema_of (R := rankedReserved B) (R' := rankingReserved B) hk
  rw [declares_unique hd' hd] at h2
  have hc1 : conflicting ((detailedReserved B).map (·.1)) (listed m) = false :=
    not_conflicting fun ⟨f, hf, hm⟩ => hu ⟨f, hf, List.mem_append_left _ hm⟩
  have hc2 : conflicting ((rankedReserved B ++ rankingReserved B).map (·.1)) (listed m) = false := by
    refine not_conflicting fun ⟨f, hf, hm⟩ => hu ⟨f, hf, ?_⟩
    have sub : ∀ x ∈ ["datum_uid", "datum_id", "gt_id", "gt_label_id", "pd_id", "pd_label_id",
        "pd_score", "iou", "iou_prev"], x ∈ detectionColumns := by decide
    exact sub _ hm
  simp only [asArg, List.map_nil, List.append_nil] at h1
  have hs1 : detailedSchema A B m = .ok (detailedReserved B ++ d) := by
    simp [detailedSchema, hc1, asArg, h1]
  have hs2 : rankedSchema A B m = .ok (rankedReserved B ++ d ++ rankingReserved B) := by
    simp only [rankedSchema, hc2, h2]
    rfl
  refine ⟨.dir ((((Root.missing).setCache "detailed" (fresh o (detailedReserved B ++ d)))).setCache "ranked" (fresh o (rankedReserved B ++ d ++ rankingReserved B))).caches (some (.full (encode A m))), d, ?_, hd, ?_⟩
  · simp only [detPersistent, hs1, hs2, schemaThenCreate]
    rw [createCache_missing _ _ _ _ (by simp) rfl]
    simp only [andThen]
    rw [createCache_missing _ _ _ _ (by simp [Root.setCache])
      (by simp [Root.setCache, Root.caches, Function.update])]
    rfl
  · simp [loadEvaluator, detNames, loadCaches, Root.setCache, Root.caches, Root.metaFile, Function.update,
      load_full ho, fresh, rankingReserved]

/-- **C49, classification: creation and reload.** -/
theorem C49_cls_roundtrip (A : Arrow τ) (B : Builtin τ) (o : Opts) (m : Fields τ) (ho : o.Valid)
    (hu : ¬ Uses clsColumns m) (hk : Known A (listed m)) :
    CreatesAndLoads A m (clsPersistent A B o m) clsNames fun d =>
      [clsReserved B ++ d,
       [("pd_label_id", B.int64), ("cumulative_fp", B.uint64), ("cumulative_tp", B.uint64)]] := by
  obtain ⟨d, hd, h1⟩ := schema_of (R := clsReserved B) (R' := []) hk
  have hc1 : conflicting ((clsReserved B).map (·.1)) (listed m) = false := not_conflicting hu
  simp only [asArg, List.map_nil, List.append_nil] at h1
  have hs1 : clsSchema A B m = .ok (clsReserved B ++ d) := by
    simp [clsSchema, hc1, asArg, h1]
  refine ⟨.dir ((((((Root.missing).setCache "cache" (fresh o (clsReserved B ++ d)))).setCache "intermediate" (fresh o (intermediateSchema B)))).setCache "roc_curve" (fresh o (rocCurveSchema B))).caches (some (.full (encode A m))), d, ?_, hd, ?_⟩
  · simp only [clsPersistent, hs1, schemaThenCreate]
    rw [createCache_missing _ _ _ _ (by simp) rfl]
    simp only [andThen]
    rw [createCache_missing _ _ _ _ (by simp [Root.setCache])
      (by simp [Root.setCache, Root.caches, Function.update])]
    simp only
    rw [createCache_missing _ _ _ _ (by simp [Root.setCache])
      (by simp [Root.setCache, Root.caches, Function.update])]
    rfl
  · simp [loadEvaluator, clsNames, loadCaches, Root.setCache, Root.caches, Root.metaFile, Function.update,
      load_full ho, fresh, rocCurveSchema]

/-- **C49, classification: what `finalize` sorts fits.** `finalize` reads the columns `pd_label_id`, `pd_score` and `match` of the
main cache, in this order, and writes the tables to the intermediate cache (`classification/evaluator.py` 173-187). In an
evaluator that was created at a free path these are exactly the columns of the intermediate cache, and the main cache has each
of them, with the same type. -/
theorem C49_cls_sortable (A : Arrow τ) (B : Builtin τ) (o : Opts) (m : Fields τ) (ho : o.Valid)
    (hu : ¬ Uses clsColumns m) (hk : Known A (listed m)) :
    ∃ r' main inter, clsPersistent A B o m .missing = (r', .ok ()) ∧
      loadCaches r' ["cache", "intermediate"] = .ok [main, inter] ∧
      inter.map (·.1) = ["pd_label_id", "pd_score", "match"] ∧ (∀ f ∈ inter, f ∈ main) ∧ (main.map (·.1)).take 9 = clsColumns := by
  obtain ⟨d, hd, h1⟩ := schema_of (R := clsReserved B) (R' := []) hk
  have hc1 : conflicting ((clsReserved B).map (·.1)) (listed m) = false := not_conflicting hu
  simp only [asArg, List.map_nil, List.append_nil] at h1
  have hs1 : clsSchema A B m = .ok (clsReserved B ++ d) := by
    simp [clsSchema, hc1, asArg, h1]
  refine ⟨.dir ((((((Root.missing).setCache "cache" (fresh o (clsReserved B ++ d)))).setCache "intermediate" (fresh o (intermediateSchema B)))).setCache "roc_curve" (fresh o (rocCurveSchema B))).caches (some (.full (encode A m))), clsReserved B ++ d, intermediateSchema B, ?_, ?_, rfl, ?_, rfl⟩
  · simp only [clsPersistent, hs1, schemaThenCreate]
    rw [createCache_missing _ _ _ _ (by simp) rfl]
    simp only [andThen]
    rw [createCache_missing _ _ _ _ (by simp [Root.setCache])
      (by simp [Root.setCache, Root.caches, Function.update])]
    simp only
    rw [createCache_missing _ _ _ _ (by simp [Root.setCache])
      (by simp [Root.setCache, Root.caches, Function.update])]
    rfl
  · simp [loadCaches, Root.setCache, Root.caches, Function.update, load_full ho, fresh]
  · intro f hf
    simp only [intermediateSchema, List.mem_cons, List.not_mem_nil, or_false] at hf
    rcases hf with rfl | rfl | rfl <;> simp [clsReserved]

/-- **C49, segmentation: creation and reload.** -/
theorem C49_seg_roundtrip (A : Arrow τ) (B : Builtin τ) (o : Opts) (m : Fields τ) (ho : o.Valid)
    (hu : ¬ Uses segColumns m) (hk : Known A (listed m)) :
    CreatesAndLoads A m (segPersistent A B o m) segNames fun d => [segReserved B ++ d] := by
  obtain ⟨d, hd, h1⟩ := schema_of (R := segReserved B) (R' := []) hk
  have hc1 : conflicting ((segReserved B).map (·.1)) (listed m) = false := not_conflicting hu
  simp only [asArg, List.map_nil, List.append_nil] at h1
  have hs1 : segSchema A B m = .ok (segReserved B ++ d) := by
    simp [segSchema, hc1, asArg, h1]
  refine ⟨.dir ((Root.missing).setCache "counts" (fresh o (segReserved B ++ d))).caches (some (.full (encode A m))), d, ?_, hd, ?_⟩
  · simp only [segPersistent, hs1, schemaThenCreate]
    rw [createCache_missing _ _ _ _ (by simp) rfl]
    rfl
  · simp [loadEvaluator, segNames, loadCaches, Root.setCache, Root.caches, Root.metaFile, Function.update,
      load_full ho, fresh]

/-- **C49, no shadowing.** Whatever is found at the path: if the creation of any of the three evaluators
succeeds, no declared field has the name of a column that evaluator owns, in any of its caches. -/
theorem C49_no_shadow (A : Arrow τ) (B : Builtin τ) (o : Opts) (m : Fields τ) (r : Root τ) :
    ((detPersistent A B o m r).2 = .ok () → ¬ Uses detectionColumns m) ∧
    ((clsPersistent A B o m r).2 = .ok () → ¬ Uses clsColumns m) ∧
    ((segPersistent A B o m r).2 = .ok () → ¬ Uses segColumns m) := by
  refine ⟨fun h hu => ?_, fun h hu => ?_, fun h hu => ?_⟩
  · obtain ⟨f, hf, hm⟩ := hu
    rcases List.mem_append.1 hm with hm | hm
    · rw [C49_det_reserved_partial A B o m r ⟨f, hf, hm⟩] at h
      simp at h
    · have hc : conflicting ((rankedReserved B ++ rankingReserved B).map (·.1)) (listed m) = true := by
        rw [conflicting_iff]
        refine ⟨f, hf, ?_⟩
        rw [List.mem_singleton.1 hm]
        simp [rankedReserved, rankingReserved]
      have hr : rankedSchema A B m = .error .conflict := by rw [rankedSchema, if_pos hc]
      simp only [detPersistent, hr] at h
      revert h
      generalize schemaThenCreate o "detailed" (detailedSchema A B m) r = x
      obtain ⟨r1, e⟩ := x
      cases e <;> simp [andThen, schemaThenCreate]
  · rw [C49_cls_reserved A B o m r hu] at h
    simp at h
  · rw [C49_seg_reserved A B o m r hu] at h
    simp at h

/-! ## What the restored fields are -/

/-- **C49, restoration in full**: with distinct names the restored declaration is the one given. -/
def RestoresExactly (A : Arrow τ) : Prop :=
  ∀ l : List (String × FieldType τ), (l.map (·.1)).Nodup →
    decode (encode A (some l)) = l

/-- **C49 (partial), restoration.** With distinct names, the restored declaration has the same names
in the same order, and every type is its printed form. -/
theorem C49_restored_partial (A : Arrow τ) (l : List (String × FieldType τ))
    (h : (l.map (·.1)).Nodup) :
    decode (encode A (some l)) = l.map fun f => (f.1, FieldType.name (τ := τ) (f.2.str A)) := by
  rw [encode_nodup A (some l) h]
  simp [decode, listed]

/-- Declarations with types given as strings are restored exactly. -/
theorem C49_restored_strings (A : Arrow τ) (l : List (String × String))
    (h : (l.map (·.1)).Nodup) :
    decode (encode A (some (l.map fun f => (f.1, FieldType.name (τ := τ) f.2)))) =
      l.map fun f => (f.1, FieldType.name (τ := τ) f.2) := by
  rw [C49_restored_partial A _ (by simpa [Function.comp_def] using h)]
  simp [FieldType.str]

/-- **C49 violation.** A field declared with a `pa.DataType` comes back as a string. -/
theorem C49_types_violation (A : Arrow τ) (t : τ) : ¬ RestoresExactly A := by
  intro h
  have := h [("k", .type t)] (by simp)
  rw [C49_restored_partial A _ (by simp)] at this
  simp at this

theorem mem_keys_dictSet {d : List (String × String)} {k v x : String} :
    x ∈ (dictSet d k v).map (·.1) ↔ x = k ∨ x ∈ d.map (·.1) := by
  induction d with
  | nil => simp [dictSet]
  | cons y d ih =>
    obtain ⟨k', v'⟩ := y
    by_cases h : k' = k
    · subst h; simp [dictSet]
    · simp only [dictSet, h, if_false, List.map_cons, List.mem_cons, ih]
      tauto

theorem nodup_dictSet {d : List (String × String)} {k v : String} (h : (d.map (·.1)).Nodup) :
    ((dictSet d k v).map (·.1)).Nodup := by
  induction d with
  | nil => simp [dictSet]
  | cons y d ih =>
    obtain ⟨k', v'⟩ := y
    simp only [List.map_cons, List.nodup_cons] at h
    by_cases hk : k' = k
    · subst hk; simpa [dictSet] using h
    · simp only [dictSet, hk, if_false, List.map_cons, List.nodup_cons]
      refine ⟨?_, ih h.2⟩
      rw [mem_keys_dictSet]
      rintro (h1 | h1)
      · exact hk h1
      · exact h.1 h1

theorem filter_dictSet {d : List (String × String)} {k v x : String} (h : (d.map (·.1)).Nodup) :
    (dictSet d k v).filter (·.1 = x) = if k = x then [(k, v)] else d.filter (·.1 = x) := by
  induction d with
  | nil => by_cases hx : k = x <;> simp [dictSet, hx]
  | cons y d ih =>
    obtain ⟨k', v'⟩ := y
    simp only [List.map_cons, List.nodup_cons] at h
    by_cases hk : k' = k
    · subst hk
      by_cases hx : k' = x
      · subst hx
        have : d.filter (fun a => decide (a.1 = k')) = [] := by
          rw [List.filter_eq_nil_iff]
          intro a ha
          simp only [decide_eq_true_eq]
          rintro rfl
          exact h.1 (List.mem_map_of_mem ha)
        simp [dictSet, this]
      · simp [dictSet, hx]
    · simp only [dictSet, hk, if_false, List.filter_cons, ih h.2]
      by_cases hx : k = x
      · subst hx; simp [hk]
      · by_cases hx' : k' = x <;> simp [hx, hx']

/-- Fields given twice (which the schema check lets through): one entry per name is restored, with
the type of its last declaration. -/
theorem C49_duplicates (A : Arrow τ) (l : List (String × FieldType τ)) (k : String) :
    (decode (encode A (some l)) : List (String × FieldType τ)).filter (·.1 = k) =
      ((l.filter (·.1 = k)).getLast?.toList.map fun f => (f.1, FieldType.name (f.2.str A))) := by
  have key : ∀ (l : List (String × FieldType τ)) (d : List (String × String)),
      (d.map (·.1)).Nodup →
      ((l.foldl (fun d f => dictSet d f.1 (f.2.str A)) d).filter (·.1 = k)) =
        match (l.filter (·.1 = k)).getLast? with
        | some f => [(f.1, f.2.str A)]
        | none => d.filter (·.1 = k) := by
    intro l
    induction l with
    | nil => intro d _; simp
    | cons f l ih =>
      intro d hd
      rw [List.foldl_cons, ih _ (nodup_dictSet hd), filter_dictSet hd]
      by_cases hf : f.1 = k
      · rw [List.filter_cons_of_pos (by simpa using hf), List.getLast?_cons]
        cases (l.filter (·.1 = k)).getLast? with
        | none => simp [hf]
        | some g => simp
      · rw [List.filter_cons_of_neg (by simpa using hf)]
        simp [hf]
  have h := key l [] (by simp)
  have hmap : (decode (encode A (some l)) : List (String × FieldType τ)).filter (·.1 = k) =
      decode ((encode A (some l)).filter (·.1 = k)) := by
    simp only [decode, List.filter_map, Function.comp_def]
  rw [hmap]
  unfold encode listed
  rw [h]
  cases (l.filter (·.1 = k)).getLast? with
  | none => simp [decode]
  | some f => simp [decode]

/-- Using a loaded evaluator further (`filter` creates the new caches from the loaded declaration):
with distinct names, the declared columns are the same if printing and reading the used types is
faithful. -/
theorem C49_reuse (A : Arrow τ) (l : List (String × FieldType τ)) (s : Schema τ)
    (hn : (l.map (·.1)).Nodup)
    (hf : ∀ k t, (k, FieldType.type t) ∈ l → A.aliasOf (A.str t) = some t) :
    Declares A (decode (encode A (some l))) s ↔ Declares A l s := by
  rw [C49_restored_partial A l hn]
  clear hn
  induction l generalizing s with
  | nil => simp [Declares]
  | cons f l ih =>
    simp only [Declares, List.map_cons, List.forall₂_cons_left_iff] at ih ⊢
    have hres : (FieldType.name (τ := τ) (f.2.str A)).resolve A = f.2.resolve A := by
      obtain ⟨k, v⟩ := f
      cases v with
      | name s => rfl
      | type t => exact hf k t (by simp)
    have ih' := fun s => ih s fun k t hm => hf k t (List.mem_cons_of_mem _ hm)
    constructor
    · rintro ⟨g, s', ⟨h1, h2⟩, h3, rfl⟩
      exact ⟨g, s', ⟨h1, by rw [← hres]; exact h2⟩, (ih' _).1 h3, rfl⟩
    · rintro ⟨g, s', ⟨h1, h2⟩, h3, rfl⟩
      exact ⟨g, s', ⟨h1, by rw [hres]; exact h2⟩, (ih' _).2 h3, rfl⟩

/-- A type whose printed form is no alias (in pyarrow: every type with parameters, for example
`list<item: int64>` or `timestamp[us, tz=UTC]`) is accepted at creation but the loaded evaluator can
never be filtered: creating the new cache raises, whatever the path. -/
theorem C49_reuse_violation (A : Arrow τ) (B : Builtin τ) (o : Opts) (t : τ) (k : String)
    (hk : k ∉ detectionColumns) (ha : A.aliasOf (A.str t) = none) (r : Root τ) :
    (detPersistent A B o (some [(k, .type t)]) .missing).2 = .ok () ∧
    detPersistent A B o (some (decode (encode A (some [(k, .type t)])))) r =
      (r, .error (.schema .noAlias)) := by
  constructor
  · have hu : ¬ Uses detailedColumns (some [(k, FieldType.type t)]) := by
      rintro ⟨f, hf, hm⟩
      simp only [listed, List.mem_singleton] at hf
      subst hf
      exact hk (List.mem_append_left _ hm)
    have hc := not_conflicting (R := (rankedReserved B ++ rankingReserved B).map (·.1))
      (m := some [(k, FieldType.type t)]) (by
        rintro ⟨f, hf, hm⟩
        simp only [listed, List.mem_singleton] at hf
        subst hf
        have sub : ∀ x ∈ ["datum_uid", "datum_id", "gt_id", "gt_label_id", "pd_id", "pd_label_id",
          "pd_score", "iou", "iou_prev"], x ∈ detectionColumns := by decide
        exact hk (sub _ hm))
    have hc' : conflicting ((detailedReserved B).map (·.1)) (listed (some [(k, .type t)])) = false :=
      not_conflicting hu
    have hka : ∀ R, Known A (asArg R ++ listed (some [(k, .type t)])) := fun R =>
      known_append.2 ⟨known_asArg A R, known_asArg A [(k, t)]⟩
    obtain ⟨s1, h1⟩ := paSchema_total (hka (detailedReserved B))
    obtain ⟨s2, h2⟩ := paSchema_total
      (known_append.2 ⟨hka (rankedReserved B), known_asArg A (rankingReserved B)⟩)
    simp only [detPersistent, detailedSchema, rankedSchema, hc, hc', h1, h2, schemaThenCreate]
    rfl
  · have hd : decode (encode A (some [(k, .type t)])) = [(k, FieldType.name (τ := τ) (A.str t))] := rfl
    have hc' : conflicting ((detailedReserved B).map (·.1))
        (listed (some [(k, FieldType.name (τ := τ) (A.str t))])) = false := by
      refine not_conflicting ?_
      rintro ⟨f, hf, hm⟩
      simp only [listed, List.mem_singleton] at hf
      subst hf
      exact hk (List.mem_append_left _ hm)
    rw [hd]
    cases hp : paSchema A (asArg (detailedReserved B) ++
        listed (some [(k, FieldType.name (τ := τ) (A.str t))])) with
    | error e =>
      have := (paSchema_error hp).1
      subst this
      simp [detPersistent, detailedSchema, hc', hp, schemaThenCreate, andThen]
    | ok s =>
      exfalso
      obtain ⟨s1, s2, -, -, h⟩ := declares_append (paSchema_ok.1 hp)
      simp only [Declares, listed, List.forall₂_cons_left_iff, FieldType.resolve, ha] at h
      obtain ⟨g, _, ⟨_, h2⟩, _⟩ := h
      simp at h2

/-! ## The hypotheses are met -/

/-- Sample pyarrow: types are numbers, four of them have aliases, type 9 (a list type) has none. -/
def sampleArrow : Arrow Nat where
  str := fun t => if t = 0 then "string" else if t = 1 then "int64" else if t = 9 then "list<item: int64>"
    else "double"
  aliasOf := fun s => if s = "string" then some 0 else if s = "int64" then some 1
    else if s = "double" then some 3 else if s = "float64" then some 3 else none

/-- Sample reserved types. -/
def sampleBuiltin : Builtin Nat := ⟨0, 1, 2, 3, 4⟩

/-- A declaration with a string type and a data type. -/
def sampleFields : Fields Nat := some [("weather", .name "string"), ("altitude", .type 3)]

example : ¬ Uses detectionColumns sampleFields := by
  simp [Uses, sampleFields, listed, detectionColumns, detailedColumns]

example : ¬ Uses clsColumns sampleFields := by
  simp [Uses, sampleFields, listed, clsColumns]

example : ¬ Uses segColumns sampleFields := by
  simp [Uses, sampleFields, listed, segColumns]

example : Known sampleArrow (listed sampleFields) := by
  intro k s h
  simp [sampleFields, listed] at h
  simp [h, sampleArrow]

example : (⟨10, 10, "snappy"⟩ : Opts).Valid := ⟨by decide, by decide, by decide⟩

example : Uses clsColumns (some [("weather", FieldType.name (τ := Nat) "string"), ("match", .type 4)]) :=
  ⟨("match", .type 4), by simp [listed], by decide⟩

example : Uses segColumns (some [("count", FieldType.type 4)]) :=
  ⟨("count", .type 4), by simp [listed], by decide⟩

example : Uses detailedColumns (some [("iou", FieldType.type 4)]) :=
  ⟨("iou", .type 4), by simp [listed], by decide⟩

example : ((sampleFields.getD []).map (·.1)).Nodup := by simp [sampleFields]

example : ∀ k t, (k, FieldType.type t) ∈ listed sampleFields →
    sampleArrow.aliasOf (sampleArrow.str t) = some t := by
  intro k t h
  simp [sampleFields, listed] at h
  simp [h, sampleArrow]

/-- The restored declaration of a sample: types as printed. -/
example : decode (encode sampleArrow sampleFields) =
    [("weather", FieldType.name (τ := Nat) "string"), ("altitude", .name "double")] := by
  decide +kernel

example : "tags" ∉ detectionColumns ∧ sampleArrow.aliasOf (sampleArrow.str 9) = none := by
  decide +kernel

end Verif.Metadata
