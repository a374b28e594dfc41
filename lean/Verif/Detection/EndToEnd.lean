import Verif.Detection.LoaderProps
import Verif.Detection.ApProps
import Verif.Detection.CmProps

/-!
# From detections to the evaluator

The hypotheses of the theorems about ranking, counts and confusion matrices hold for every cache that the
loader can produce, for any division into files.
-/

namespace Verif.Detection

open Verif.Cache (WOp FileW payloads sortBy)

/-- The detailed cache: whole payloads are grouped into tables (files, or the one table in memory; see
`C04_file_alignment`), and each table is sorted (`sort_by`; any permutation here). -/
def Stored (rows tables : List (List FRow)) : Prop :=
  ∃ groups : List (List (List FRow)), groups.flatten = rows.filter (fun p => !p.isEmpty) ∧
    List.Forall₂ (fun g t => g.flatten.Perm t) groups tables

/-- The files of a file cache, each sorted by any key. `op` is `write_rows` or `write_table`. -/
theorem stored_file (batchSize rowsPerFile : Nat) (ext : List Nat) (rows : List (List FRow)) {K : Type} [LinearOrder K]
    (key : FRow → K) (op : List FRow → WOp FRow) (hop : op = WOp.rows ∨ op = WOp.table) :
    Stored rows ((((FileW.create batchSize rowsPerFile true ext).run
      (rows.map op ++ [.flush])).closed.map Prod.snd).map (sortBy key)) := by
  obtain ⟨groups, h1, h2⟩ := Verif.Cache.C04_file_alignment batchSize rowsPerFile ext (rows.map op)
  refine ⟨groups, ?_, ?_⟩
  · rw [h1]
    unfold payloads
    rw [List.map_map]
    congr 1
    conv_rhs => rw [← List.map_id rows]
    apply List.map_congr_left
    intro l _
    rcases hop with rfl | rfl <;> rfl
  · rw [h2, List.map_map, List.forall₂_map_right_iff]
    apply List.forall₂_same.2
    intro g _
    exact (List.mergeSort_perm _ _).symm

/-- The one table in memory. -/
theorem stored_mem (rows : List (List FRow)) {K : Type} [LinearOrder K] (key : FRow → K) :
    Stored rows [sortBy key rows.flatten] := by
  refine ⟨[rows.filter (fun p => !p.isEmpty)], by simp, ?_⟩
  refine List.Forall₂.cons ?_ List.Forall₂.nil
  have : (rows.filter (fun p => !p.isEmpty)).flatten = rows.flatten := by
    induction rows with
    | nil => rfl
    | cons p ps ih =>
      cases p with
      | nil => simp [ih]
      | cons a l => simp [ih]
  rw [this]
  exact (List.mergeSort_perm _ _).symm

theorem stored_mem_iff {rows tables : List (List FRow)} (h : Stored rows tables) (f : FRow) :
    f ∈ tables.flatten ↔ f ∈ rows.flatten := by
  obtain ⟨groups, hg, hf⟩ := h
  have h1 : f ∈ tables.flatten ↔ f ∈ groups.flatten.flatten := by
    clear hg
    induction hf with
    | nil => simp
    | @cons g t gs ts hgt _ ih =>
      rw [List.flatten_cons, List.mem_append, ih, ← hgt.mem_iff, List.flatten_cons, List.flatten_append, List.mem_append]
  rw [h1, hg, List.mem_flatten, List.mem_flatten]
  constructor
  · rintro ⟨p, hp, h⟩
    exact ⟨p, (List.mem_filter.1 hp).1, h⟩
  · rintro ⟨p, hp, hf⟩
    refine ⟨p, List.mem_filter.2 ⟨hp, ?_⟩, hf⟩
    cases p with
    | nil => simp at hf
    | cons a l => rfl

/-- The numeric columns of the tables. -/
abbrev rowsIn (tables : List (List FRow)) : List (List Row) := tables.map (fun t => t.map FRow.row)

theorem rowsIn_flatten (tables : List (List FRow)) : (rowsIn tables).flatten = tables.flatten.map FRow.row := by
  rw [List.map_flatten]

theorem stored_aligned {rows tables : List (List FRow)} (h : Stored rows tables)
    (hd : rows.Pairwise (fun a b => ∀ x ∈ a, ∀ y ∈ b, x.row.datum ≠ y.row.datum)) : Aligned (rowsIn tables) := by
  obtain ⟨groups, hg, hf⟩ := h
  have hp := hd.filter (fun p => !p.isEmpty)
  rw [← hg, List.pairwise_flatten] at hp
  have hp2 := hp.2
  clear hp hg hd
  unfold Aligned
  rw [List.pairwise_map]
  induction hf with
  | nil => exact List.Pairwise.nil
  | @cons g t gs ts hgt hrest ih =>
    rw [List.pairwise_cons] at hp2 ⊢
    refine ⟨?_, ih hp2.2⟩
    intro t' ht' x hx y hy
    obtain ⟨fx, hfx, rfl⟩ := List.mem_map.1 hx
    rw [← hgt.mem_iff] at hfx
    obtain ⟨px, hpx, hfpx⟩ := List.mem_flatten.1 hfx
    have : ∃ g' ∈ gs, g'.flatten.Perm t' := by
      clear ih hp2
      induction hrest with
      | nil => simp at ht'
      | @cons g1 t1 gs1 ts1 h1 h2 ih2 =>
        rcases List.mem_cons.1 ht' with rfl | h
        · exact ⟨g1, by simp, h1⟩
        · obtain ⟨g', hg', hh⟩ := ih2 h
          exact ⟨g', by simp [hg'], hh⟩
    obtain ⟨g', hg', hperm⟩ := this
    obtain ⟨fy, hfy, rfl⟩ := List.mem_map.1 hy
    rw [← hperm.mem_iff] at hfy
    obtain ⟨py, hpy, hfpy⟩ := List.mem_flatten.1 hfy
    exact hp2.1 g' hg' px hpx py hpy fx hfpx fy hfpy

/-- The rows of the selected detections, in tables that are aligned with datums. `keep` selects detections by
their number; everything is selected right after loading (`holding_of_stored`), less after a datum filter. -/
structure Holding (calls : List History) (keep : Nat → Bool) (tables : List (List Row)) : Prop where
  aligned : Aligned tables
  rows : ∀ r, r ∈ tables.flatten ↔ ∃ k x f, keep k = true ∧ calls.flatten[k]? = some x ∧
    IsRow (Loader.init.addAll calls).labels x.1 x.2 k (gtOffset calls.flatten k) (pdOffset calls.flatten k) f ∧ f.row = r

/-- The selected detections. -/
def selected (H : History) (keep : Nat → Bool) : History := (H.zipIdx.filter (fun x => keep x.2)).map Prod.fst

theorem selected_all (H : History) : selected H (fun _ => true) = H := by
  unfold selected
  rw [List.filter_true, List.zipIdx_map_fst]

/-! ## Labels -/

/-- The label texts of the rows of a step are labels that the step adds. -/
theorem step_out (d : Det) (iou : Nat → Nat → Rat) (k : Int) (g0 p0 : Nat) : ∀ s ∈ detSteps d iou k g0 p0, ∀ a b r, r ∈ s.out a b →
    (∀ v, r.gtLabel = some v → v ∈ s.labels) ∧ (∀ v, r.pdLabel = some v → v ∈ s.labels) := by
  have hpd : ∀ x, ∀ s ∈ pdSteps d k p0 x, ∀ a b r, r ∈ s.out a b →
      (∀ v, r.gtLabel = some v → v ∈ s.labels) ∧ (∀ v, r.pdLabel = some v → v ∈ s.labels) := by
    intro x s hs a b r hr
    obtain ⟨z, _, rfl⟩ := List.mem_map.1 hs
    rw [List.mem_singleton] at hr
    subst hr
    refine ⟨by simp [pdRow], ?_⟩
    intro v hv
    simp [pdRow] at hv
    simp [Step.labels, hv]
  intro s hs a b r hr
  unfold detSteps at hs
  split at hs
  · rw [List.mem_flatMap] at hs
    obtain ⟨x, _, hs⟩ := hs
    unfold gtSteps at hs
    rcases List.mem_cons.1 hs with rfl | hs
    · dsimp only at hr
      split at hr
      · rw [List.mem_singleton] at hr
        subst hr
        refine ⟨?_, by simp [gtRow]⟩
        intro v hv
        simp only [gtRow, Option.some.injEq] at hv
        subst hv
        simp [Step.labels]
      · simp at hr
    · rw [List.mem_flatMap] at hs
      obtain ⟨y, _, hs⟩ := hs
      rcases List.mem_append.1 hs with hs | hs
      · split at hs
        · exact hpd y s hs a b r hr
        · simp at hs
      · split at hs
        · rw [List.mem_flatMap] at hs
          obtain ⟨gl, _, hs⟩ := hs
          obtain ⟨z, _, rfl⟩ := List.mem_map.1 hs
          rw [List.mem_singleton] at hr
          subst hr
          constructor <;> intro v hv <;> simp [pairRow] at hv <;> simp [Step.labels, hv]
        · simp at hs
  · rw [List.mem_flatMap] at hs
    obtain ⟨x, _, hs⟩ := hs
    exact hpd x s hs a b r hr

/-- Every label text of a stored row is in the label table. -/
theorem row_labels (calls : List History) : ∀ p ∈ (Loader.init.addAll calls).rows, ∀ r ∈ p,
    (∀ v, r.gtLabel = some v → v ∈ (Loader.init.addAll calls).labels) ∧ (∀ v, r.pdLabel = some v → v ∈ (Loader.init.addAll calls).labels) := by
  have hone : ∀ (s : Loader) x, s.labels.Nodup → (∀ p ∈ s.rows, ∀ r ∈ p, (∀ v, r.gtLabel = some v → v ∈ s.labels) ∧ (∀ v, r.pdLabel = some v → v ∈ s.labels)) →
      (s.addOne x).labels.Nodup ∧ ∀ p ∈ (s.addOne x).rows, ∀ r ∈ p, (∀ v, r.gtLabel = some v → v ∈ (s.addOne x).labels) ∧ (∀ v, r.pdLabel = some v → v ∈ (s.addOne x).labels) := by
    intro s x hnd h
    obtain ⟨c1, c2, c3, _, c5⟩ := exec_spec (detSteps x.1 x.2 s.datums s.gts s.pds) s.labels hnd
    unfold Loader.addOne
    dsimp only
    refine ⟨c1, ?_⟩
    intro p hp r hr
    rcases List.mem_append.1 hp with hp | hp
    · exact ⟨fun v hv => c2.subset ((h p hp r hr).1 v hv), fun v hv => c2.subset ((h p hp r hr).2 v hv)⟩
    · rw [List.mem_singleton] at hp
      subst hp
      rw [c5 _ List.prefix_rfl, List.mem_flatMap] at hr
      obtain ⟨st, hst, hr⟩ := hr
      obtain ⟨h1, h2⟩ := step_out _ _ _ _ _ st hst _ _ r hr
      exact ⟨fun v hv => c3 st hst v (h1 v hv), fun v hv => c3 st hst v (h2 v hv)⟩
  have hdata : ∀ (l : History) (s : Loader), s.labels.Nodup → (∀ p ∈ s.rows, ∀ r ∈ p, (∀ v, r.gtLabel = some v → v ∈ s.labels) ∧ (∀ v, r.pdLabel = some v → v ∈ s.labels)) →
      (s.addData l).labels.Nodup ∧ ∀ p ∈ (s.addData l).rows, ∀ r ∈ p, (∀ v, r.gtLabel = some v → v ∈ (s.addData l).labels) ∧ (∀ v, r.pdLabel = some v → v ∈ (s.addData l).labels) := by
    unfold Loader.addData
    intro l
    induction l with
    | nil => intro s h1 h2; exact ⟨h1, h2⟩
    | cons x l ih =>
      intro s h1 h2
      obtain ⟨h3, h4⟩ := hone s x h1 h2
      exact ih _ h3 h4
  have hall : ∀ (s : Loader), s.labels.Nodup → (∀ p ∈ s.rows, ∀ r ∈ p, (∀ v, r.gtLabel = some v → v ∈ s.labels) ∧ (∀ v, r.pdLabel = some v → v ∈ s.labels)) →
      ∀ p ∈ (s.addAll calls).rows, ∀ r ∈ p, (∀ v, r.gtLabel = some v → v ∈ (s.addAll calls).labels) ∧ (∀ v, r.pdLabel = some v → v ∈ (s.addAll calls).labels) := by
    unfold Loader.addAll
    induction calls with
    | nil => intro s _ h2; exact h2
    | cons c cs ih =>
      intro s h1 h2
      obtain ⟨h3, h4⟩ := hdata c s h1 h2
      exact ih _ h3 h4
  exact hall Loader.init (by simp [Loader.init]) (by simp [Loader.init])

/-- The label id of a row is the position of its label text. -/
theorem IsRow.texts {L : List String} {d : Det} {iou : Nat → Nat → Rat} {k g0 p0 : Nat} {f : FRow} (h : IsRow L d iou k g0 p0 f) :
    ((f.gtLabel = none ∧ f.row.gl = -1 ∧ f.row.gt = -1) ∨ ∃ v, f.gtLabel = some v ∧ f.row.gl = L.idxOf v ∧ 0 ≤ f.row.gt) ∧
    ((f.pdLabel = none ∧ f.row.pl = -1 ∧ f.row.pd = -1) ∨ ∃ v, f.pdLabel = some v ∧ f.row.pl = L.idxOf v ∧ 0 ≤ f.row.pd) := by
  rcases h with ⟨_, _, _, _, rfl⟩ | ⟨_, _, _, _, _, _, _, rfl⟩ | ⟨_, _, _, _, _, _, _, _, _, _, _, _, rfl⟩
  · exact ⟨Or.inr ⟨_, rfl, rfl, by simp only [gtRow]; omega⟩, Or.inl ⟨rfl, rfl, rfl⟩⟩
  · exact ⟨Or.inl ⟨rfl, rfl, rfl⟩, Or.inr ⟨_, rfl, rfl, by simp only [pdRow]; omega⟩⟩
  · exact ⟨Or.inr ⟨_, rfl, rfl, by simp only [pairRow]; omega⟩, Or.inr ⟨_, rfl, rfl, by simp only [pairRow]; omega⟩⟩

/-! ## The hypotheses of C26-C32 -/

/-- Detections with one label per ground truth and IoU values in [0, 1] (C24, C25). -/
structure HistoryOk (H : History) : Prop where
  gtLabel : ∀ x ∈ H, ∀ a ∈ x.1.gts, a.labels.length = 1
  pdLabel : ∀ x ∈ H, ∀ a ∈ x.1.pds, a.labels ≠ [] ∧ a.scores.length = a.labels.length
  iou : ∀ x ∈ H, ∀ p g, 0 ≤ x.2 p g ∧ x.2 p g ≤ 1

/-- Predictions with one label. -/
def OneLabel (H : History) : Prop := ∀ x ∈ H, ∀ a ∈ x.1.pds, a.labels.length = 1

theorem isRow_labels (calls : List History) {k : Nat} {x : Det × (Nat → Nat → Rat)} {f : FRow} (hk : calls.flatten[k]? = some x)
    (hf : IsRow (Loader.init.addAll calls).labels x.1 x.2 k (gtOffset calls.flatten k) (pdOffset calls.flatten k) f) :
    (∀ v, f.gtLabel = some v → v ∈ (Loader.init.addAll calls).labels) ∧ (∀ v, f.pdLabel = some v → v ∈ (Loader.init.addAll calls).labels) := by
  obtain ⟨_, _, hrows⟩ := C34_rows calls
  obtain ⟨payload, h1, h2⟩ := hrows k x hk
  exact row_labels calls payload (List.mem_of_getElem? h1) f ((h2 f).2 hf)

theorem IsRow.datum {L : List String} {d : Det} {iou : Nat → Nat → Rat} {k g0 p0 : Nat} {f : FRow} (h : IsRow L d iou k g0 p0 f) :
    f.row.datum = k := by
  rcases h with ⟨_, _, _, _, rfl⟩ | ⟨_, _, _, _, _, _, _, rfl⟩ | ⟨_, _, _, _, _, _, _, _, _, _, _, _, rfl⟩ <;> rfl

/-- The ground truth of a row. -/
theorem IsRow.gt {L : List String} {d : Det} {iou : Nat → Nat → Rat} {k g0 p0 : Nat} {f : FRow} (h : IsRow L d iou k g0 p0 f)
    (h1 : ∀ a ∈ d.gts, a.labels.length = 1) :
    (f.row.gt = -1 ∧ f.row.gl = -1) ∨ ∃ g a, d.gts[g]? = some a ∧ f.row.gt = ((g0 + g : Nat) : Int) ∧
      f.row.gl = L.idxOf (a.labels.headD "") ∧ f.gtLabel = some (a.labels.headD "") := by
  rcases h with ⟨g, a, hg, _, rfl⟩ | ⟨_, _, _, _, _, _, _, rfl⟩ | ⟨g, a, _, _, glabel, _, _, hg, _, _, hgl, _, rfl⟩
  · exact Or.inr ⟨g, a, hg, rfl, rfl, rfl⟩
  · exact Or.inl ⟨rfl, rfl⟩
  · refine Or.inr ⟨g, a, hg, rfl, ?_⟩
    have := h1 a (List.mem_of_getElem? hg)
    obtain ⟨l, hl⟩ := List.length_eq_one_iff.1 this
    rw [hl] at hgl ⊢
    rw [List.mem_singleton] at hgl
    subst hgl
    exact ⟨rfl, rfl⟩

/-- The prediction of a row. -/
theorem IsRow.pd {L : List String} {d : Det} {iou : Nat → Nat → Rat} {k g0 p0 : Nat} {f : FRow} (h : IsRow L d iou k g0 p0 f) :
    (f.row.pd = -1 ∧ f.row.pl = -1) ∨ ∃ p a label, d.pds[p]? = some a ∧ (label, f.row.score) ∈ a.labels.zip a.scores ∧
      f.row.pd = ((p0 + p : Nat) : Int) ∧ f.row.pl = L.idxOf label ∧ f.pdLabel = some label := by
  rcases h with ⟨_, _, _, _, rfl⟩ | ⟨p, a, label, score, hp, hz, _, rfl⟩ | ⟨_, _, p, a, _, label, score, _, hp, _, _, hz, rfl⟩
  · exact Or.inl ⟨rfl, rfl⟩
  · exact Or.inr ⟨p, a, label, hp, hz, rfl, rfl, rfl⟩
  · exact Or.inr ⟨p, a, label, hp, hz, rfl, rfl, rfl⟩

/-- The rows of the cache are the rows of the detections. -/
theorem holding_of_stored {calls : List History} {tables : List (List FRow)} (h : Stored (Loader.init.addAll calls).rows tables) :
    Holding calls (fun _ => true) (rowsIn tables) := by
  obtain ⟨_, hlen, hrows⟩ := C34_rows calls
  constructor
  · apply stored_aligned h
    rw [List.pairwise_iff_getElem]
    intro i j hi hj hij x hx y hy
    have hd : ∀ (k : Nat) (hk : k < (Loader.init.addAll calls).rows.length), ∀ z ∈ (Loader.init.addAll calls).rows[k], z.row.datum = (k : Int) := by
      intro k hk z hz
      obtain ⟨payload, h1, h2⟩ := hrows k _ (List.getElem?_eq_getElem (by omega))
      rw [List.getElem?_eq_getElem hk] at h1
      have := Option.some.inj h1
      exact ((h2 z).1 (this ▸ hz)).datum
    rw [hd i hi x hx, hd j hj y hy]
    omega
  · intro r
    rw [rowsIn_flatten, List.mem_map]
    constructor
    · rintro ⟨f, hf, he⟩
      rw [stored_mem_iff h, List.mem_flatten] at hf
      obtain ⟨p, hp, hf⟩ := hf
      obtain ⟨k, hk, rfl⟩ := List.getElem_of_mem hp
      have hkx : calls.flatten[k]? = some (calls.flatten[k]'(by omega)) := List.getElem?_eq_getElem (by omega)
      obtain ⟨payload, h1, h2⟩ := hrows k _ hkx
      rw [List.getElem?_eq_getElem hk] at h1
      have := Option.some.inj h1
      exact ⟨k, _, f, rfl, hkx, (h2 f).1 (this ▸ hf), he⟩
    · rintro ⟨k, x, f, _, hkx, hf, he⟩
      obtain ⟨payload, h1, h2⟩ := hrows k x hkx
      exact ⟨f, (stored_mem_iff h f).2 (List.mem_flatten.2 ⟨payload, List.mem_of_getElem? h1, (h2 f).2 hf⟩), he⟩

theorem getElem?_lt {α : Type} {l : List α} {i : Nat} {a : α} (h : l[i]? = some a) : i < l.length :=
  (List.getElem?_eq_some_iff.1 h).1

theorem idxOf_mem_lt {L : List String} {v : String} (h : v ∈ L) : (L.idxOf v : Int) < L.length := by
  exact_mod_cast List.idxOf_lt_length_of_mem h

/-- Every cache that the loader can write meets the hypotheses of the ranking and counting theorems. -/
theorem cacheOk_of_holding {calls : List History} {keep : Nat → Bool} {tables : List (List Row)} (h : Holding calls keep tables)
    (hH : HistoryOk calls.flatten) (hL : (Loader.init.addAll calls).labels.length ≤ 100000) : CacheOk tables := by
  have hlab := fun (k : Nat) x f (hk : calls.flatten[k]? = some x) hf => isRow_labels calls (k := k) (x := x) (f := f) hk hf
  constructor
  · exact h.aligned
  · intro tbl ht r hr
    obtain ⟨k, x, f, hkp, hk, hf, rfl⟩ := (h.rows r).1 (List.mem_flatten.2 ⟨tbl, ht, hr⟩)
    have hx := hH.iou x (List.mem_of_getElem? hk)
    rcases hf with ⟨_, _, _, _, rfl⟩ | ⟨_, _, _, _, _, _, _, rfl⟩ | ⟨g, _, p, _, _, _, _, _, _, _, _, _, rfl⟩
    · exact ⟨le_refl _, by simp [gtRow]⟩
    · exact ⟨le_refl _, by simp [pdRow]⟩
    · exact hx p g
  · intro tbl ht r hr
    obtain ⟨k, x, f, hkp, hk, hf, rfl⟩ := (h.rows r).1 (List.mem_flatten.2 ⟨tbl, ht, hr⟩)
    obtain ⟨_, hl2⟩ := hlab k x f hk hf
    obtain ⟨t1, t2⟩ := hf.texts
    constructor
    · intro hp
      rcases t2 with ⟨_, _, h3⟩ | ⟨v, hv, hpl, _⟩
      · omega
      · have := idxOf_mem_lt (hl2 v hv)
        rw [hpl]
        constructor
        · omega
        · omega
    · intro hg
      rcases t1 with ⟨_, h2, _⟩ | ⟨v, _, _, h3⟩
      · exact h2
      · omega
  · intro a ha b hb h0 hab
    obtain ⟨k, x, f, hkp, hk, hf, rfl⟩ := (h.rows a).1 ha
    obtain ⟨k', x', f', hkp', hk', hf', rfl⟩ := (h.rows b).1 hb
    have e1 := hf.gt (hH.gtLabel x (List.mem_of_getElem? hk))
    have e2 := hf'.gt (hH.gtLabel x' (List.mem_of_getElem? hk'))
    rcases e1 with ⟨e1, _⟩ | ⟨g, ga, hg, e1, e1l, _⟩
    · omega
    rcases e2 with ⟨e2, _⟩ | ⟨g', ga', hg', e2, e2l, _⟩
    · omega
    rw [e1, e2] at hab
    obtain ⟨rfl, rfl⟩ := (C34_ids calls.flatten hk hk').1 (getElem?_lt hg) (getElem?_lt hg') (by exact_mod_cast hab)
    rw [hk] at hk'
    cases hk'
    rw [hg] at hg'
    cases hg'
    exact ⟨by rw [hf.datum, hf'.datum], by rw [e1l, e2l]⟩

theorem sum_take_lt (l : List Nat) {i a : Nat} (hi : i < l.length) (ha : a < l[i]) : (l.take i).sum + a < l.sum := by
  have h1 : (l.take (i + 1)).sum = (l.take i).sum + l[i] := by
    rw [List.take_add_one, List.getElem?_eq_getElem hi, List.sum_append]
    simp
  have h2 : (l.take (i + 1)).sum + (l.drop (i + 1)).sum = l.sum := by
    rw [← List.sum_append, List.take_append_drop]
  omega

theorem offset_lt (H : History) {k : Nat} {x : Det × (Nat → Nat → Rat)} (hk : H[k]? = some x) :
    (∀ g, g < x.1.gts.length → gtOffset H k + g < gtOffset H H.length) ∧ (∀ p, p < x.1.pds.length → pdOffset H k + p < pdOffset H H.length) := by
  obtain ⟨h1, rfl⟩ := List.getElem?_eq_some_iff.1 hk
  unfold gtOffset pdOffset
  rw [List.take_length, List.map_take, List.map_take]
  exact ⟨fun g hg => sum_take_lt (H.map (fun x => x.1.gts.length)) (by simpa using h1) (by simpa using hg),
    fun p hp => sum_take_lt (H.map (fun x => x.1.pds.length)) (by simpa using h1) (by simpa using hp)⟩

theorem zip_single {labels : List String} {scores : List Rat} (h1 : labels.length = 1) {l l' : String} {s s' : Rat}
    (h : (l, s) ∈ labels.zip scores) (h' : (l', s') ∈ labels.zip scores) : l = l' ∧ s = s' := by
  obtain ⟨v, rfl⟩ := List.length_eq_one_iff.1 h1
  cases scores with
  | nil => simp at h
  | cons a as =>
    simp at h h'
    exact ⟨h.1.trans h'.1.symm, h.2.trans h'.2.symm⟩

/-- Every cache with single labels that the loader can write meets the hypotheses of the confusion matrix
theorems. -/
theorem pairsOk_of_holding {calls : List History} {keep : Nat → Bool} {tables : List (List Row)} (h : Holding calls keep tables)
    (hH : HistoryOk calls.flatten) (h1 : OneLabel calls.flatten)
    (hg : (Loader.init.addAll calls).gts ≤ 2 ^ 31) (hp : (Loader.init.addAll calls).pds ≤ 2 ^ 31)
    (hd : (Loader.init.addAll calls).datums ≤ 2 ^ 31) :
    PairsOk tables.flatten ∧ LabelsBelow (Loader.init.addAll calls).labels.length tables.flatten := by
  have i := linv_addAll calls
  rw [i.gts] at hg
  rw [i.pds] at hp
  rw [i.datums] at hd
  have hpd : ∀ a ∈ tables.flatten, ∀ b ∈ tables.flatten, 0 ≤ a.pd → a.pd = b.pd → a.datum = b.datum ∧ a.pl = b.pl ∧ a.score = b.score := by
    intro a ha b hb h0 hab
    obtain ⟨k, x, f, hkp, hk, hf, rfl⟩ := (h.rows a).1 ha
    obtain ⟨k', x', f', hkp', hk', hf', rfl⟩ := (h.rows b).1 hb
    rcases hf.pd with ⟨e1, _⟩ | ⟨p, pa, l, hpa, hz, e1, e1l, _⟩
    · omega
    rcases hf'.pd with ⟨e2, _⟩ | ⟨p', pa', l', hpa', hz', e2, e2l, _⟩
    · omega
    rw [e1, e2] at hab
    obtain ⟨rfl, rfl⟩ := (C34_ids calls.flatten hk hk').2 (getElem?_lt hpa) (getElem?_lt hpa') (by exact_mod_cast hab)
    rw [hk] at hk'
    cases hk'
    rw [hpa] at hpa'
    cases hpa'
    obtain ⟨rfl, hs⟩ := zip_single (h1 x (List.mem_of_getElem? hk) pa (List.mem_of_getElem? hpa)) hz hz'
    exact ⟨by rw [hf.datum, hf'.datum], by rw [e1l, e2l], hs⟩
  have hgt : ∀ a ∈ tables.flatten, ∀ b ∈ tables.flatten, 0 ≤ a.gt → a.gt = b.gt → a.datum = b.datum ∧ a.gl = b.gl := by
    intro a ha b hb h0 hab
    obtain ⟨k, x, f, hkp, hk, hf, rfl⟩ := (h.rows a).1 ha
    obtain ⟨k', x', f', hkp', hk', hf', rfl⟩ := (h.rows b).1 hb
    rcases hf.gt (hH.gtLabel x (List.mem_of_getElem? hk)) with ⟨e1, _⟩ | ⟨g, ga, hg, e1, e1l, _⟩
    · omega
    rcases hf'.gt (hH.gtLabel x' (List.mem_of_getElem? hk')) with ⟨e2, _⟩ | ⟨g', ga', hg', e2, e2l, _⟩
    · omega
    rw [e1, e2] at hab
    obtain ⟨rfl, rfl⟩ := (C34_ids calls.flatten hk hk').1 (getElem?_lt hg) (getElem?_lt hg') (by exact_mod_cast hab)
    rw [hk] at hk'
    cases hk'
    rw [hg] at hg'
    cases hg'
    exact ⟨by rw [hf.datum, hf'.datum], by rw [e1l, e2l]⟩
  refine ⟨⟨?_, hgt, hpd, ?_⟩, ?_⟩
  · intro r hr
    obtain ⟨k, x, f, hkp, hk, hf, rfl⟩ := (h.rows r).1 hr
    obtain ⟨o1, o2⟩ := offset_lt calls.flatten hk
    refine ⟨?_, ?_, ?_⟩
    · rcases hf.gt (hH.gtLabel x (List.mem_of_getElem? hk)) with ⟨e1, _⟩ | ⟨g, ga, hg', e1, _⟩
      · exact Or.inl e1
      · right
        have := o1 g (getElem?_lt hg')
        unfold IdOk
        omega
    · rcases hf.pd with ⟨e1, _⟩ | ⟨p, pa, l, hpa, _, e1, _⟩
      · exact Or.inl e1
      · right
        have := o2 p (getElem?_lt hpa)
        unfold IdOk
        omega
    · have := getElem?_lt hk
      rw [hf.datum]
      unfold IdOk
      omega
  · intro a ha b hb g0 p0 hab hab'
    obtain ⟨k, x, f, hkp, hk, hf, rfl⟩ := (h.rows a).1 ha
    obtain ⟨k', x', f', hkp', hk', hf', rfl⟩ := (h.rows b).1 hb
    have hgl := hH.gtLabel x (List.mem_of_getElem? hk)
    have hgl' := hH.gtLabel x' (List.mem_of_getElem? hk')
    have hkk : k = k' := by
      have := (hgt _ ha _ hb g0 hab).1
      rw [hf.datum, hf'.datum] at this
      omega
    subst hkk
    rw [hk] at hk'
    cases hk'
    rcases hf with ⟨_, _, _, _, rfl⟩ | ⟨_, _, _, _, _, _, _, rfl⟩ | ⟨g, _, p, _, _, _, _, _, _, _, _, _, rfl⟩
    · simp only [gtRow] at p0; omega
    · simp only [pdRow] at g0; omega
    rcases hf' with ⟨_, _, _, _, rfl⟩ | ⟨_, _, _, _, _, _, _, rfl⟩ | ⟨g', _, p', _, _, _, _, _, _, _, _, _, rfl⟩
    · simp only [gtRow, pairRow] at hab'; omega
    · simp only [pdRow, pairRow] at hab; omega
    · simp only [pairRow] at hab hab' ⊢
      have e1 : g = g' := by omega
      have e2 : p = p' := by omega
      rw [e1, e2]
  · intro r hr
    obtain ⟨k, x, f, hkp, hk, hf, rfl⟩ := (h.rows r).1 hr
    obtain ⟨l1, l2⟩ := isRow_labels calls hk hf
    obtain ⟨t1, t2⟩ := hf.texts
    constructor
    · intro h0
      rcases t1 with ⟨_, _, h3⟩ | ⟨v, hv, e, _⟩
      · omega
      · have := idxOf_mem_lt (l1 v hv)
        rw [e]
        omega
    · intro h0
      rcases t2 with ⟨_, _, h3⟩ | ⟨v, hv, e, _⟩
      · omega
      · have := idxOf_mem_lt (l2 v hv)
        rw [e]
        omega

/-! ## Counts in terms of the annotations -/

/-- Number of ground truths with label `v`. -/
def gtNumber (H : History) (v : String) : Nat :=
  (H.map (fun x => (x.1.gts.filter (fun a => decide (a.labels.headD "" = v))).length)).sum

/-- Number of predictions with label `v` and a score that passes the threshold. -/
def pdNumber (H : History) (s : Rat) (v : String) : Nat :=
  (H.map (fun x => (x.1.pds.filter (fun a => decide (a.labels.headD "" = v ∧ s ≤ a.scores.headD 0 ∧ EPSILON < a.scores.headD 0))).length)).sum

/-- Ids of the annotations that satisfy `q`. -/
def idList (H : History) (keep : Nat → Bool) (f : Det → List Ann) (off : Nat → Nat) (q : Ann → Bool) : List Int :=
  (H.zipIdx.filter (fun x => keep x.2)).flatMap (fun x => ((f x.1.1).zipIdx.filter (fun y => q y.1)).map (fun y => ((off x.2 + y.2 : Nat) : Int)))

theorem mem_idList {H : History} {keep : Nat → Bool} {f : Det → List Ann} {off : Nat → Nat} {q : Ann → Bool} {z : Int} :
    z ∈ idList H keep f off q ↔ ∃ k x i a, keep k = true ∧ H[k]? = some x ∧ (f x.1)[i]? = some a ∧ q a = true ∧ z = ((off k + i : Nat) : Int) := by
  unfold idList
  rw [List.mem_flatMap]
  constructor
  · rintro ⟨⟨x, k⟩, hx, hz⟩
    obtain ⟨⟨a, i⟩, hy, rfl⟩ := List.mem_map.1 hz
    rw [List.mem_filter] at hy
    rw [List.mem_filter] at hx
    exact ⟨k, x, i, a, hx.2, mem_zipIdx'.1 hx.1, mem_zipIdx'.1 hy.1, hy.2, rfl⟩
  · rintro ⟨k, x, i, a, hkp, hx, ha, hq, rfl⟩
    refine ⟨(x, k), List.mem_filter.2 ⟨mem_zipIdx'.2 hx, hkp⟩, List.mem_map.2 ⟨(a, i), List.mem_filter.2 ⟨mem_zipIdx'.2 ha, hq⟩, rfl⟩⟩

theorem length_zipIdx_filter {α : Type} (l : List α) (q : α → Bool) (n : Nat) :
    ((l.zipIdx n).filter (fun y => q y.1)).length = (l.filter q).length := by
  induction l generalizing n with
  | nil => rfl
  | cons a l ih =>
    rw [List.zipIdx_cons, List.filter_cons, List.filter_cons]
    dsimp only
    split
    · rw [List.length_cons, List.length_cons, ih]
    · exact ih _

theorem idList_length (H : History) (keep : Nat → Bool) (f : Det → List Ann) (off : Nat → Nat) (q : Ann → Bool) :
    (idList H keep f off q).length = ((selected H keep).map (fun x => ((f x.1).filter q).length)).sum := by
  unfold idList selected
  rw [List.length_flatMap, List.map_map]
  congr 1
  apply List.map_congr_left
  rintro ⟨x, k⟩ _
  simp only [Function.comp_apply, List.length_map, length_zipIdx_filter]

theorem nodup_zipIdx_map {α : Type} (l : List α) (n : Nat) : (l.zipIdx n).Nodup := by
  apply List.Nodup.of_map Prod.snd
  rw [List.zipIdx_map_snd]
  exact List.nodup_range'

theorem idList_nodup (H : History) (keep : Nat → Bool) (f : Det → List Ann) (off : Nat → Nat) (q : Ann → Bool)
    (hinj : ∀ k k' i i' x x', H[k]? = some x → H[k']? = some x' → i < (f x.1).length → i' < (f x'.1).length → off k + i = off k' + i' → k = k' ∧ i = i') :
    (idList H keep f off q).Nodup := by
  unfold idList
  rw [List.nodup_flatMap]
  constructor
  · intro x hx
    apply List.Nodup.map_on _ ((nodup_zipIdx_map _ _).filter _)
    rintro ⟨a, i⟩ ha ⟨b, j⟩ hb he
    have h1 := mem_zipIdx'.1 (List.mem_of_mem_filter ha)
    have h2 := mem_zipIdx'.1 (List.mem_of_mem_filter hb)
    dsimp only at he
    have : i = j := by omega
    subst this
    rw [h1] at h2
    cases h2
    rfl
  · apply List.Pairwise.imp_of_mem _ ((nodup_zipIdx_map H 0).filter (fun x => keep x.2))
    rintro ⟨x, k⟩ ⟨x', k'⟩ hx hx' hne
    replace hx := List.mem_of_mem_filter hx
    replace hx' := List.mem_of_mem_filter hx'
    have hk := mem_zipIdx'.1 hx
    have hk' := mem_zipIdx'.1 hx'
    intro z hz hz'
    obtain ⟨⟨a, i⟩, ha, rfl⟩ := List.mem_map.1 hz
    obtain ⟨⟨b, j⟩, hb, he⟩ := List.mem_map.1 hz'
    have h1 := mem_zipIdx'.1 (List.mem_of_mem_filter ha)
    have h2 := mem_zipIdx'.1 (List.mem_of_mem_filter hb)
    dsimp only at he h1 h2
    obtain ⟨rfl, rfl⟩ := hinj k k' i j x x' hk hk' (getElem?_lt h1) (getElem?_lt h2) (by omega)
    rw [hk] at hk'
    cases hk'
    exact hne rfl

theorem dedup_length_of_mem {l m : List Int} (hm : m.Nodup) (h : ∀ z, z ∈ l ↔ z ∈ m) : l.dedup.length = m.length := by
  apply List.Perm.length_eq
  rw [List.perm_ext_iff_of_nodup (List.nodup_dedup _) hm]
  intro z
  rw [List.mem_dedup]
  exact h z

theorem idxOf_eq_iff {L : List String} {v w : String} (hv : v ∈ L) : (L.idxOf v : Int) = (L.idxOf w : Int) ↔ v = w := by
  constructor
  · intro h
    have h' : L.idxOf v = L.idxOf w := by exact_mod_cast h
    have hw : L.idxOf w < L.length := by rw [← h']; exact List.idxOf_lt_length_of_mem hv
    have h1 := List.getElem_idxOf (List.idxOf_lt_length_of_mem hv)
    have h2 := List.getElem_idxOf hw
    rw [← h1, ← h2]
    simp only [h']
  · rintro rfl; rfl

/-- The distinct ground truths of a label in the cache. -/
theorem gt_distinct {calls : List History} {keep : Nat → Bool} {tables : List (List Row)} (h : Holding calls keep tables)
    (hH : HistoryOk calls.flatten) (v : String) :
    ((tables.flatten.filter (fun r : Row => decide (0 ≤ r.gt ∧ r.gl = ((Loader.init.addAll calls).labels.idxOf v : Nat)))).map Row.gt).dedup.length
      = gtNumber (selected calls.flatten keep) v := by
  unfold gtNumber
  rw [← idList_length calls.flatten keep Det.gts (gtOffset calls.flatten) (fun a => decide (a.labels.headD "" = v))]
  apply dedup_length_of_mem
  · apply idList_nodup
    intro k k' i i' x x' hk hk' hi hi' he
    exact (C34_ids calls.flatten hk hk').1 hi hi' he
  · intro z
    rw [mem_idList, List.mem_map]
    constructor
    · rintro ⟨r, hr, rfl⟩
      rw [List.mem_filter, decide_eq_true_eq] at hr
      obtain ⟨hr, h0, hgl⟩ := hr
      obtain ⟨k, x, f, hkp, hk, hf, rfl⟩ := (h.rows r).1 hr
      rcases hf.gt (hH.gtLabel x (List.mem_of_getElem? hk)) with ⟨e1, _⟩ | ⟨g, ga, hg, e1, e1l, ht⟩
      · omega
      · refine ⟨k, x, g, ga, hkp, hk, hg, ?_, e1⟩
        rw [decide_eq_true_eq]
        have := (isRow_labels calls hk hf).1 _ ht
        rw [e1l] at hgl
        exact (idxOf_eq_iff this).1 hgl
    · rintro ⟨k, x, i, a, hkp, hk, hi, hq, rfl⟩
      rw [decide_eq_true_eq] at hq
      have hx := List.mem_of_getElem? hk
      have hval : x.1.valid = true := by
        unfold Det.valid
        rw [List.all_eq_true]
        intro p hp
        simpa using (hH.pdLabel x hx p hp).2
      obtain ⟨r, hr, h1, h2, h3, _⟩ := C34_groundtruths (Loader.init.addAll calls).labels x.1 x.2 k (gtOffset calls.flatten k) (pdOffset calls.flatten k)
        hval (fun a ha => (hH.pdLabel x hx a ha).1) hi (by
          have := hH.gtLabel x hx a (List.mem_of_getElem? hi)
          intro he; rw [he] at this; simp at this)
      refine ⟨r.row, List.mem_filter.2 ⟨(h.rows _).2 ⟨k, x, r, hkp, hk, hr, rfl⟩, ?_⟩, h2⟩
      rw [decide_eq_true_eq, h2, h3, hq]
      exact ⟨by omega, rfl⟩

/-- The distinct predictions of a label that pass a score threshold in the cache. -/
theorem pd_distinct {calls : List History} {keep : Nat → Bool} {tables : List (List Row)} (h : Holding calls keep tables)
    (hH : HistoryOk calls.flatten) (h1 : OneLabel calls.flatten) (s : Rat) (v : String) :
    ((tables.flatten.filter (fun r : Row => decide (0 ≤ r.pd ∧ r.pl = ((Loader.init.addAll calls).labels.idxOf v : Nat) ∧ s ≤ r.score ∧ EPSILON < r.score))).map Row.pd).dedup.length
      = pdNumber (selected calls.flatten keep) s v := by
  unfold pdNumber
  rw [← idList_length calls.flatten keep Det.pds (pdOffset calls.flatten)
    (fun a => decide (a.labels.headD "" = v ∧ s ≤ a.scores.headD 0 ∧ EPSILON < a.scores.headD 0))]
  have hz1 : ∀ (a : Ann), a.labels.length = 1 → ∀ l sc, (l, sc) ∈ a.labels.zip a.scores → l = a.labels.headD "" ∧ sc = a.scores.headD 0 := by
    intro a ha l sc hz
    obtain ⟨w, hw⟩ := List.length_eq_one_iff.1 ha
    rw [hw] at hz ⊢
    cases hsc : a.scores with
    | nil => rw [hsc] at hz; simp at hz
    | cons b bs => rw [hsc] at hz; simpa using hz
  apply dedup_length_of_mem
  · apply idList_nodup
    intro k k' i i' x x' hk hk' hi hi' he
    exact (C34_ids calls.flatten hk hk').2 hi hi' he
  · intro z
    rw [mem_idList, List.mem_map]
    constructor
    · rintro ⟨r, hr, rfl⟩
      rw [List.mem_filter, decide_eq_true_eq] at hr
      obtain ⟨hr, h0, hpl, hs⟩ := hr
      obtain ⟨k, x, f, hkp, hk, hf, rfl⟩ := (h.rows r).1 hr
      rcases hf.pd with ⟨e1, _⟩ | ⟨p, pa, l, hpa, hz, e1, e1l, ht⟩
      · omega
      · refine ⟨k, x, p, pa, hkp, hk, hpa, ?_, e1⟩
        rw [decide_eq_true_eq]
        obtain ⟨rfl, hsc⟩ := hz1 pa (h1 x (List.mem_of_getElem? hk) pa (List.mem_of_getElem? hpa)) _ _ hz
        have := (isRow_labels calls hk hf).2 _ ht
        rw [e1l] at hpl
        rw [← hsc]
        exact ⟨(idxOf_eq_iff this).1 hpl, hs⟩
    · rintro ⟨k, x, i, a, hkp, hk, hi, hq, rfl⟩
      rw [decide_eq_true_eq] at hq
      have hx := List.mem_of_getElem? hk
      have ha := h1 x hx a (List.mem_of_getElem? hi)
      have has := (hH.pdLabel x hx a (List.mem_of_getElem? hi)).2
      have hz : (a.labels.headD "", a.scores.headD 0) ∈ a.labels.zip a.scores := by
        obtain ⟨w, hw⟩ := List.length_eq_one_iff.1 ha
        obtain ⟨b, hb⟩ := List.length_eq_one_iff.1 (has.trans ha)
        rw [hw, hb]
        simp
      obtain ⟨r, hr, h1, h2, h3, h4, _⟩ := C34_predictions (Loader.init.addAll calls).labels x.1 x.2 k (gtOffset calls.flatten k) (pdOffset calls.flatten k)
        (fun a ha => by
          have := hH.gtLabel x hx a ha
          intro he; rw [he] at this; simp at this) hi hz
      refine ⟨r.row, List.mem_filter.2 ⟨(h.rows _).2 ⟨k, x, r, hkp, hk, hr, rfl⟩, ?_⟩, h2⟩
      rw [decide_eq_true_eq, h2, h3, h4]
      exact ⟨by omega, by rw [hq.1], hq.2⟩

/-- Every prediction has at most one row in the ranked cache. -/
theorem ranked_pd_nodup {tables : List (List Row)} (hc : CacheOk tables) (hp : PairsOk tables.flatten) {out : List RRow}
    (h : RankedOf tables out) : (out.map (fun r : RRow => r.row.pd)).Nodup := by
  have hperm : out.Perm (tables.map rankTable).flatten := by
    have := h.2
    exact Verif.Cache.StableOf.perm this
  rw [(hperm.map _).nodup_iff]
  rw [List.map_flatten, List.nodup_flatten]
  constructor
  · intro l hl
    simp only [List.map_map, List.mem_map] at hl
    obtain ⟨tbl, htbl, rfl⟩ := hl
    have h1 := ranked_nodup tbl
    unfold ranked at h1
    rw [List.map_map] at h1
    show (List.map (fun r : RRow => r.row.pd) (rankTable tbl)).Nodup
    unfold List.Nodup at h1 ⊢
    rw [List.pairwise_map] at h1 ⊢
    refine h1.imp_of_mem ?_
    intro a b ha hb hne he
    apply hne
    have ha' := List.mem_flatten.2 ⟨tbl, htbl, rankTable_mem ha⟩
    have hb' := List.mem_flatten.2 ⟨tbl, htbl, rankTable_mem hb⟩
    have h0 := (C26_best tbl (hc.rows tbl htbl) (List.mem_map_of_mem (f := RRow.row) ha)).2.1
    obtain ⟨e1, e2, _⟩ := hp.pds _ ha' _ hb' h0 he
    exact pdKey_iff.2 ⟨e1, he, e2⟩
  · rw [List.map_map, List.pairwise_map]
    apply List.Pairwise.imp_of_mem _ hc.aligned
    intro t1 t2 ht1 ht2 hd z hz1 hz2
    obtain ⟨a, ha, rfl⟩ := List.mem_map.1 hz1
    obtain ⟨b, hb, hab⟩ := List.mem_map.1 hz2
    have ha' := List.mem_flatten.2 ⟨t1, ht1, rankTable_mem ha⟩
    have hb' := List.mem_flatten.2 ⟨t2, ht2, rankTable_mem hb⟩
    have h0 := (C26_best t1 (hc.rows t1 ht1) (List.mem_map_of_mem (f := RRow.row) ha)).2.1
    exact hd _ (rankTable_mem ha) _ (rankTable_mem hb) (hp.pds _ ha' _ hb' h0 hab.symm).1

/-- In the ranked cache every prediction of a label occurs once. -/
theorem ranked_predictions {tables : List (List Row)} (hc : CacheOk tables) (hp : PairsOk tables.flatten) {out : List RRow}
    (h : RankedOf tables out) (s : Rat) (l : Int) :
    (out.filter (fun r => decide (Active s l r))).length
      = ((tables.flatten.filter (fun r : Row => decide (0 ≤ r.pd ∧ r.pl = l ∧ s ≤ r.score ∧ EPSILON < r.score))).map Row.pd).dedup.length := by
  have hperm : out.Perm (tables.map rankTable).flatten := by
    have := h.2
    exact Verif.Cache.StableOf.perm this
  rw [← List.length_map (f := fun r : RRow => r.row.pd)]
  symm
  apply dedup_length_of_mem
  · rw [((hperm.filter _).map _).nodup_iff]
    have hnd : (((tables.map rankTable).flatten).map (fun r : RRow => r.row.pd)).Nodup := by
      rw [← (hperm.map _).nodup_iff]
      exact ranked_pd_nodup hc hp h
    exact hnd.sublist ((List.filter_sublist).map _)
  · intro z
    simp only [List.mem_map, List.mem_filter, decide_eq_true_eq]
    constructor
    · rintro ⟨r, ⟨hr, h0, hl, hs⟩, rfl⟩
      obtain ⟨tbl, htbl, hrt⟩ := List.mem_flatten.1 hr
      have hsingle : SingleLabel tbl := by
        intro x hx y hy h0 he
        obtain ⟨e1, e2, _⟩ := hp.pds x (List.mem_flatten.2 ⟨tbl, htbl, hx⟩) y (List.mem_flatten.2 ⟨tbl, htbl, hy⟩) h0 he
        exact ⟨e1, e2⟩
      have h1 := C26_single_label_partial tbl (hc.rows tbl htbl) hsingle hrt h0
      have hpos : 0 < ((ranked tbl).filter (fun r' => decide (SamePrediction r' r))).length := by omega
      obtain ⟨q, hq⟩ := List.exists_mem_of_length_pos hpos
      rw [List.mem_filter, decide_eq_true_eq] at hq
      obtain ⟨hq1, q1, q2, q3⟩ := hq
      obtain ⟨r', hr', rfl⟩ := List.mem_map.1 hq1
      refine ⟨r', ⟨hperm.mem_iff.2 (List.mem_flatten.2 ⟨rankTable tbl, List.mem_map_of_mem htbl, hr'⟩), ?_⟩, q2⟩
      have hb' := List.mem_flatten.2 ⟨tbl, htbl, rankTable_mem hr'⟩
      obtain ⟨_, _, e3⟩ := hp.pds _ hr _ hb' h0 q2.symm
      unfold Active
      rw [← e3, q3]
      exact ⟨hl, hs⟩
    · rintro ⟨r, ⟨hr, ha⟩, rfl⟩
      obtain ⟨h1, h2, _⟩ := ranked_pd hc h hr
      exact ⟨r.row, ⟨h1, h2, ha⟩, rfl⟩

/-- The sizes up to which ids and labels are exact. -/
structure SizesOk (s : Loader) : Prop where
  labels : s.labels.length ≤ 100000
  gts : s.gts ≤ 2 ^ 31
  pds : s.pds ≤ 2 ^ 31
  datums : s.datums ≤ 2 ^ 31

/-- **C54 (ground truths).** For every sequence of `add_*` calls, every division of the cache into files and
every label: the ground truth count used by recall is the number of ground truths that were added with the
label (in the selected detections; all of them by `holding_of_stored`). -/
theorem C54_groundtruths {calls : List History} {keep : Nat → Bool} {tables : List (List Row)} (h : Holding calls keep tables)
    (hH : HistoryOk calls.flatten) (hL : (Loader.init.addAll calls).labels.length ≤ 100000) (v : String) :
    gtCount tables ((Loader.init.addAll calls).labels.idxOf v : Nat) = gtNumber (selected calls.flatten keep) v := by
  rw [C28_groundtruths (cacheOk_of_holding h hH hL), gt_distinct h hH v]

/-- **C54 (predictions).** For single-label predictions and all thresholds: true plus false positives of a
label are the predictions that were added with the label and a score that passes the threshold. -/
theorem C54_predictions {calls : List History} {keep : Nat → Bool} {tables : List (List Row)} (h : Holding calls keep tables)
    (hH : HistoryOk calls.flatten) (h1 : OneLabel calls.flatten) (hS : SizesOk (Loader.init.addAll calls))
    {out : List RRow} (hout : RankedOf tables out) (chunks : List (List RRow)) (hch : chunks.flatten = out) (t s : Rat) (v : String) :
    tpTotal t s chunks ((Loader.init.addAll calls).labels.idxOf v : Nat) + fpTotal t s chunks ((Loader.init.addAll calls).labels.idxOf v : Nat)
      = pdNumber (selected calls.flatten keep) s v := by
  rw [C28_tp_fp, hch, ranked_predictions (cacheOk_of_holding h hH hS.labels)
    (pairsOk_of_holding h hH h1 hS.gts hS.pds hS.datums).1 hout, pd_distinct h hH h1]

/-- **C54 (confusion matrix).** For single-label predictions and all thresholds: the row of a label together
with its missed ground truths sums to the ground truths that were added with the label, and its column
together with the unmatched predictions to the predictions with the label that pass the score threshold. -/
theorem C54_confusion_matrix {calls : List History} {keep : Nat → Bool} {tables : List (List Row)} (h : Holding calls keep tables)
    (hH : HistoryOk calls.flatten) (h1 : OneLabel calls.flatten) (hS : SizesOk (Loader.init.addAll calls)) (t s : Rat) (v : String) :
    ((List.range (Loader.init.addAll calls).labels.length).map
        (fun p : Nat => cmTotal tables t s ((Loader.init.addAll calls).labels.idxOf v : Nat) (p : Nat))).sum
      + unmatchedGtTotal tables t s ((Loader.init.addAll calls).labels.idxOf v : Nat) = gtNumber (selected calls.flatten keep) v ∧
    ((List.range (Loader.init.addAll calls).labels.length).map
        (fun g : Nat => cmTotal tables t s (g : Nat) ((Loader.init.addAll calls).labels.idxOf v : Nat))).sum
      + unmatchedPdTotal tables t s ((Loader.init.addAll calls).labels.idxOf v : Nat) = pdNumber (selected calls.flatten keep) s v := by
  have hc := cacheOk_of_holding h hH hS.labels
  obtain ⟨hp, hl⟩ := pairsOk_of_holding h hH h1 hS.gts hS.pds hS.datums
  constructor
  · rw [C32_groundtruths hc.aligned hp hl, ← gt_distinct h hH v]
    rfl
  · rw [C32_predictions hc.aligned hp hl, ← pd_distinct h hH h1 s v]
    unfold distinct
    congr 3
    apply List.filter_congr
    intro r _
    rw [decide_eq_decide]
    tauto

/-- `best k p` is a ground truth of datum `k` with the label of prediction `p` that overlaps it most, if any
overlaps. -/
def IsBest (H : History) (keep : Nat → Bool) (best : Nat → Nat → Option Nat) : Prop :=
  ∀ k x p a, keep k = true → H[k]? = some x → x.1.pds[p]? = some a →
    (∀ g, best k p = some g → (∃ b, x.1.gts[g]? = some b ∧ b.labels = a.labels) ∧ EPSILON ≤ x.2 p g ∧
      ∀ g' b', x.1.gts[g']? = some b' → b'.labels = a.labels → x.2 p g' ≤ x.2 p g) ∧
    (best k p = none → ∀ g b, x.1.gts[g]? = some b → b.labels = a.labels → x.2 p g < EPSILON)

/-- A ground truth id that is the best one of a prediction with label `v`, passing score and IoU threshold. -/
def Found (H : History) (keep : Nat → Bool) (best : Nat → Nat → Option Nat) (t s : Rat) (v : String) (z : Int) : Prop :=
  ∃ k x p a g, keep k = true ∧ H[k]? = some x ∧ x.1.pds[p]? = some a ∧ a.labels.headD "" = v ∧ s ≤ a.scores.headD 0 ∧ EPSILON < a.scores.headD 0 ∧
    best k p = some g ∧ t ≤ x.2 p g ∧ z = ((gtOffset H k + g : Nat) : Int)

theorem labels_eq {a b : List String} (ha : a.length = 1) (hb : b.length = 1) : a = b ↔ a.headD "" = b.headD "" := by
  obtain ⟨x, rfl⟩ := List.length_eq_one_iff.1 ha
  obtain ⟨y, rfl⟩ := List.length_eq_one_iff.1 hb
  simp

theorem zip_head {a : Ann} (ha : a.labels.length = 1) {l : String} {sc : Rat} (hz : (l, sc) ∈ a.labels.zip a.scores) :
    l = a.labels.headD "" ∧ sc = a.scores.headD 0 := by
  obtain ⟨w, hw⟩ := List.length_eq_one_iff.1 ha
  rw [hw] at hz ⊢
  cases hsc : a.scores with
  | nil => rw [hsc] at hz; simp at hz
  | cons b bs => rw [hsc] at hz; simpa using hz

/-- What a pair row says. -/
structure PairOf (L : List String) (H : History) (keep : Nat → Bool) (r : Row) (k : Nat) (x : Det × (Nat → Nat → Rat)) (g : Nat) (ga : Ann) (p : Nat) (pa : Ann) : Prop where
  hkp : keep k = true
  hk : H[k]? = some x
  hg : x.1.gts[g]? = some ga
  hp : x.1.pds[p]? = some pa
  datum : r.datum = k
  gt : r.gt = ((gtOffset H k + g : Nat) : Int)
  pd : r.pd = ((pdOffset H k + p : Nat) : Int)
  iou : r.iou = x.2 p g
  eps : EPSILON ≤ x.2 p g
  gl : r.gl = (L.idxOf (ga.labels.headD "") : Nat)
  pl : r.pl = (L.idxOf (pa.labels.headD "") : Nat)
  score : r.score = pa.scores.headD 0
  gmem : ga.labels.headD "" ∈ L
  pmem : pa.labels.headD "" ∈ L
  gone : ga.labels.length = 1
  pone : pa.labels.length = 1

theorem pairOf {calls : List History} {keep : Nat → Bool} {tables : List (List Row)} (h : Holding calls keep tables)
    (hH : HistoryOk calls.flatten) (h1 : OneLabel calls.flatten) {r : Row} (hr : r ∈ tables.flatten) (h0 : 0 ≤ r.gt) (h0' : 0 ≤ r.pd) :
    ∃ k x g ga p pa, PairOf (Loader.init.addAll calls).labels calls.flatten keep r k x g ga p pa := by
  obtain ⟨k, x, f, hkp, hk, hf, rfl⟩ := (h.rows r).1 hr
  obtain ⟨l1, l2⟩ := isRow_labels calls hk hf
  rcases hf with ⟨_, _, _, _, rfl⟩ | ⟨_, _, _, _, _, _, _, rfl⟩ | ⟨g, ga, p, pa, glabel, label, score, hg, hp, heps, hgl, hz, rfl⟩
  · simp [gtRow] at h0'
  · simp [pdRow] at h0
  · have hgone := hH.gtLabel x (List.mem_of_getElem? hk) ga (List.mem_of_getElem? hg)
    have hpone := h1 x (List.mem_of_getElem? hk) pa (List.mem_of_getElem? hp)
    obtain ⟨rfl, hsc⟩ := zip_head hpone hz
    have : glabel = ga.labels.headD "" := by
      obtain ⟨w, hw⟩ := List.length_eq_one_iff.1 hgone
      rw [hw] at hgl ⊢
      simpa using hgl
    subst this
    exact ⟨k, x, g, ga, p, pa, ⟨hkp, hk, hg, hp, rfl, rfl, rfl, rfl, heps, rfl, rfl, hsc, l1 _ rfl, l2 _ rfl, hgone, hpone⟩⟩

theorem pairRow_mem {calls : List History} {keep : Nat → Bool} {tables : List (List Row)} (h : Holding calls keep tables)
    (hH : HistoryOk calls.flatten) (h1 : OneLabel calls.flatten) {k : Nat} {x : Det × (Nat → Nat → Rat)} {g : Nat} {ga : Ann} {p : Nat} {pa : Ann}
    (hkp : keep k = true) (hk : calls.flatten[k]? = some x) (hg : x.1.gts[g]? = some ga) (hp : x.1.pds[p]? = some pa) (heps : EPSILON ≤ x.2 p g) :
    ∃ r ∈ tables.flatten, PairOf (Loader.init.addAll calls).labels calls.flatten keep r k x g ga p pa := by
  have hx := List.mem_of_getElem? hk
  have hgone := hH.gtLabel x hx ga (List.mem_of_getElem? hg)
  have hpone := h1 x hx pa (List.mem_of_getElem? hp)
  have hs := (hH.pdLabel x hx pa (List.mem_of_getElem? hp)).2
  have hz : (pa.labels.headD "", pa.scores.headD 0) ∈ pa.labels.zip pa.scores := by
    obtain ⟨w, hw⟩ := List.length_eq_one_iff.1 hpone
    obtain ⟨b, hb⟩ := List.length_eq_one_iff.1 (hs.trans hpone)
    rw [hw, hb]
    simp
  have hgl : ga.labels.headD "" ∈ ga.labels := by
    obtain ⟨w, hw⟩ := List.length_eq_one_iff.1 hgone
    rw [hw]
    simp
  have hf : IsRow (Loader.init.addAll calls).labels x.1 x.2 k (gtOffset calls.flatten k) (pdOffset calls.flatten k) _ :=
    Or.inr (Or.inr ⟨g, ga, p, pa, _, _, _, hg, hp, heps, hgl, hz, rfl⟩)
  obtain ⟨l1, l2⟩ := isRow_labels calls hk hf
  exact ⟨_, (h.rows _).2 ⟨k, x, _, hkp, hk, hf, rfl⟩, ⟨hkp, hk, hg, hp, rfl, rfl, rfl, rfl, heps, rfl, rfl, rfl, l1 _ rfl, l2 _ rfl, hgone, hpone⟩⟩

/-- Rows of one datum are in one table. -/
theorem same_table {tables : List (List Row)} (ha : Aligned tables) {t1 t2 : List Row} (h1 : t1 ∈ tables) (h2 : t2 ∈ tables)
    {x y : Row} (hx : x ∈ t1) (hy : y ∈ t2) (hd : x.datum = y.datum) : y ∈ t1 := by
  by_cases he : t1 = t2
  · rw [he]; exact hy
  · exfalso
    unfold Aligned at ha
    obtain ⟨i, hi, rfl⟩ := List.getElem_of_mem h1
    obtain ⟨j, hj, rfl⟩ := List.getElem_of_mem h2
    rw [List.pairwise_iff_getElem] at ha
    rcases Nat.lt_trichotomy i j with hij | hij | hij
    · exact ha i j hi hj hij x hx y hy hd
    · subst hij; exact he rfl
    · exact ha j i hj hi hij y hy x hx hd.symm

open Classical in
/-- **C54 (true positives).** For single-label predictions there is a choice of a best ground truth for
every prediction such that, for all thresholds and labels, the true positives are the ground truths that
are the best one of a passing prediction with IoU at least the threshold. -/
theorem C54_true_positives {calls : List History} {keep : Nat → Bool} {tables : List (List Row)} (h : Holding calls keep tables)
    (hH : HistoryOk calls.flatten) (h1 : OneLabel calls.flatten) (hS : SizesOk (Loader.init.addAll calls))
    {out : List RRow} (hout : RankedOf tables out) (chunks : List (List RRow)) (hch : chunks.flatten = out) :
    ∃ best, IsBest calls.flatten keep best ∧ ∀ t, 0 < t → ∀ s v,
      ∃ ids : List Int, ids.Nodup ∧ (∀ z, z ∈ ids ↔ Found calls.flatten keep best t s v z) ∧
        tpTotal t s chunks ((Loader.init.addAll calls).labels.idxOf v : Nat) = ids.length := by
  have hc := cacheOk_of_holding h hH hS.labels
  have hp := (pairsOk_of_holding h hH h1 hS.gts hS.pds hS.datums).1
  have hnd := ranked_pd_nodup hc hp hout
  let P : Nat → Nat → Nat → Prop := fun k p g => ∃ r ∈ out, Matches r.row ∧
    r.row.pd = ((pdOffset calls.flatten k + p : Nat) : Int) ∧ r.row.gt = ((gtOffset calls.flatten k + g : Nat) : Int)
  have huniq : ∀ {k p g g'}, P k p g → P k p g' → g = g' := by
    rintro k p g g' ⟨r, hr, _, hpd, hgt⟩ ⟨r', hr', _, hpd', hgt'⟩
    have : r = r' := List.inj_on_of_nodup_map hnd hr hr' (by rw [hpd, hpd'])
    subst this
    rw [hgt] at hgt'
    omega
  let best : Nat → Nat → Option Nat := fun k p => if hex : ∃ g, P k p g then some hex.choose else none
  have hbest : ∀ k p g, best k p = some g ↔ P k p g := by
    intro k p g
    constructor
    · intro hb
      simp only [best] at hb
      split at hb
      · rename_i hex
        rw [← Option.some.inj hb]
        exact hex.choose_spec
      · cases hb
    · intro hP
      simp only [best]
      rw [dif_pos ⟨g, hP⟩]
      congr 1
      exact huniq (Exists.choose_spec (⟨g, hP⟩ : ∃ g, P k p g)) hP
  -- a ranked match, seen as a pair
  have hmatch : ∀ {r : RRow}, r ∈ out → Matches r.row → ∃ k x g ga p pa,
      PairOf (Loader.init.addAll calls).labels calls.flatten keep r.row k x g ga p pa ∧ ga.labels = pa.labels ∧ best k p = some g := by
    intro r hr hm
    obtain ⟨m1, m2, _⟩ := ranked_pd hc hout hr
    obtain ⟨k, x, g, ga, p, pa, hpo⟩ := pairOf h hH h1 m1 hm.1 m2
    refine ⟨k, x, g, ga, p, pa, hpo, ?_, (hbest k p g).2 ⟨r, hr, hm, hpo.pd, hpo.gt⟩⟩
    rw [labels_eq hpo.gone hpo.pone]
    have := hm.2
    rw [hpo.gl, hpo.pl] at this
    exact (idxOf_eq_iff hpo.gmem).1 this
  -- the pair behind a best ground truth
  have hpair : ∀ {k x p a g}, calls.flatten[k]? = some x → x.1.pds[p]? = some a → best k p = some g →
      ∃ r ∈ out, Matches r.row ∧ ∃ ga, PairOf (Loader.init.addAll calls).labels calls.flatten keep r.row k x g ga p a ∧ ga.labels = a.labels := by
    intro k x p a g hk ha hb
    obtain ⟨r, hr, hm, hpd, hgt⟩ := (hbest k p g).1 hb
    obtain ⟨k', x', g', ga, p', pa, hpo, hlab, _⟩ := hmatch hr hm
    rw [hpo.pd] at hpd
    obtain ⟨rfl, rfl⟩ := (C34_ids calls.flatten hpo.hk hk).2 (getElem?_lt hpo.hp) (getElem?_lt ha) (by exact_mod_cast hpd)
    have hxx : x' = x := Option.some.inj (hpo.hk.symm.trans hk)
    subst hxx
    have haa : pa = a := Option.some.inj (hpo.hp.symm.trans ha)
    subst haa
    have hgg : g' = g := by
      rw [hpo.gt] at hgt
      omega
    subst hgg
    exact ⟨r, hr, hm, ga, hpo, hlab⟩
  refine ⟨best, ?_, ?_⟩
  · intro k x p a hkp hk ha
    constructor
    · intro g hb
      obtain ⟨r, hr, hm, ga, hpo, hlab⟩ := hpair hk ha hb
      refine ⟨⟨ga, hpo.hg, hlab⟩, hpo.eps, ?_⟩
      intro g' b' hb' hlab'
      by_cases heps : EPSILON ≤ x.2 p g'
      · obtain ⟨c, hcm, hco⟩ := pairRow_mem h hH h1 hkp hk hb' ha heps
        obtain ⟨tbl, htbl, hrt⟩ := mem_merged hout hr
        obtain ⟨tbl', htbl', hct⟩ := List.mem_flatten.1 hcm
        have hcin := same_table hc.aligned htbl htbl' (rankTable_mem hrt) hct (by rw [hpo.datum, hco.datum])
        have hmc : Matches c := ⟨by rw [hco.gt]; omega, by rw [hco.gl, hco.pl, hlab']⟩
        have hcr : SamePrediction c r.row := ⟨by rw [hpo.datum, hco.datum], by rw [hpo.pd, hco.pd], by rw [hpo.pl, hco.pl]⟩
        have := ((C26_best tbl (hc.rows tbl htbl) (List.mem_map_of_mem (f := RRow.row) hrt)).2.2 c hcin hcr).2 ⟨fun _ => hm, fun _ => hmc⟩
        rcases this with h2 | ⟨_, h2⟩
        · rw [hco.score, hpo.score] at h2
          exact absurd h2 (lt_irrefl _)
        · rw [hco.iou, hpo.iou] at h2
          exact h2
      · exact le_of_lt (lt_of_lt_of_le (not_le.1 heps) hpo.eps)
    · intro hnone g b hb hlab
      by_contra hcon
      obtain ⟨c, hcm, hco⟩ := pairRow_mem h hH h1 hkp hk hb ha (not_lt.1 hcon)
      obtain ⟨tbl, htbl, hct⟩ := List.mem_flatten.1 hcm
      have hmc : Matches c := ⟨by rw [hco.gt]; omega, by rw [hco.gl, hco.pl, hlab]⟩
      obtain ⟨q, hq, hqs⟩ := (ranked_has tbl (hc.rows tbl htbl) (x := c)).2 ⟨c, hct, ⟨rfl, rfl, rfl⟩, by rw [hco.pd]; omega, Or.inl hmc⟩
      have hqm := ((C26_best tbl (hc.rows tbl htbl) hq).2.2 c hct ⟨hqs.1.symm, hqs.2.1.symm, hqs.2.2.symm⟩).1 hmc
      obtain ⟨r, hr, rfl⟩ := List.mem_map.1 hq
      have hrout : r ∈ out := by
        have hst := hout.2
        exact (Verif.Cache.StableOf.perm hst).mem_iff.2 (List.mem_flatten.2 ⟨rankTable tbl, List.mem_map_of_mem htbl, hr⟩)
      obtain ⟨k', x', g', ga, p', pa, hpo, _, hb'⟩ := hmatch hrout hqm
      have := hqs.2.1
      rw [hpo.pd, hco.pd] at this
      obtain ⟨rfl, rfl⟩ := (C34_ids calls.flatten hpo.hk hk).2 (getElem?_lt hpo.hp) (getElem?_lt ha) (by exact_mod_cast this)
      rw [hnone] at hb'
      cases hb'
  · intro t ht s v
    refine ⟨((out.filter (fun r => decide (Active s ((Loader.init.addAll calls).labels.idxOf v : Nat) r ∧ Covers t r))).map (fun r => r.row.gt)).dedup,
      List.nodup_dedup _, ?_, ?_⟩
    · intro z
      rw [List.mem_dedup]
      simp only [List.mem_map, List.mem_filter, decide_eq_true_eq]
      constructor
      · rintro ⟨r, ⟨hr, ha, hm, hti⟩, rfl⟩
        obtain ⟨k, x, g, ga, p, pa, hpo, hlab, hb⟩ := hmatch hr hm
        refine ⟨k, x, p, pa, g, hpo.hkp, hpo.hk, hpo.hp, ?_, ?_, ?_, hb, ?_, hpo.gt⟩
        · have := ha.1
          rw [hpo.pl] at this
          exact (idxOf_eq_iff hpo.pmem).1 this
        · rw [← hpo.score]; exact ha.2.1
        · rw [← hpo.score]; exact ha.2.2
        · rw [← hpo.iou]; exact hti
      · rintro ⟨k, x, p, a, g, hkp, hk, ha, hv, hs, he, hb, hti, rfl⟩
        obtain ⟨r, hr, hm, ga, hpo, _⟩ := hpair hk ha hb
        refine ⟨r, ⟨hr, ⟨?_, ?_, ?_⟩, hm, ?_⟩, hpo.gt⟩
        · rw [hpo.pl, hv]
        · rw [hpo.score]; exact hs
        · rw [hpo.score]; exact he
        · rw [hpo.iou]; exact hti
    · rw [C28_tp hc hout ht s _ chunks hch]
      apply distinct_congr (f := fun r : RRow => (r.row.datum, r.row.gt)) (g := fun r : RRow => r.row.gt)
      intro a ha b hb
      simp only [List.mem_filter, decide_eq_true_eq] at ha hb
      constructor
      · intro he
        exact (Prod.mk.inj he).2
      · intro he
        rw [Prod.mk.injEq]
        exact ⟨(hc.gts _ (ranked_pd hc hout ha.1).1 _ (ranked_pd hc hout hb.1).1 ha.2.2.1.1 he).1, he⟩

/-! ## Ground truths with several labels -/

/-- A ground truth with the labels cat and dog, which the constructor accepts since it has two scores, and a prediction cat. -/
def catDogCalls (iou : Rat) : List History :=
  [[(⟨"d", [⟨"g", ["cat", "dog"], [1, 1], ""⟩], [⟨"p", ["cat"], [1 / 2], ""⟩, ⟨"q", ["dog"], [1 / 2], ""⟩], ""⟩,
    fun p _ => if p = 0 then iou else 0)]]

/-- **C54 is false of the code** for ground truths with several labels: the ground truth counts as a dog only when a
prediction overlaps it. -/
theorem C54_labels_violation :
    (∀ iou, ∀ x ∈ (catDogCalls iou).flatten, (∀ a ∈ x.1.gts ++ x.1.pds, a.valid = true) ∧ x.1.valid = true) ∧
    (Loader.init.addAll (catDogCalls 0)).labels = ["cat", "dog"] ∧ (Loader.init.addAll (catDogCalls (1 / 2))).labels = ["cat", "dog"] ∧
    gtCount ((Loader.init.addAll (catDogCalls 0)).rows.map (fun t => t.map FRow.row)) 1 = 0 ∧
    gtCount ((Loader.init.addAll (catDogCalls (1 / 2))).rows.map (fun t => t.map FRow.row)) 1 = 1 := by
  refine ⟨fun iou x hx => ?_, ?_, ?_, ?_, ?_⟩
  · simp only [catDogCalls, List.flatten_cons, List.flatten_nil, List.append_nil, List.mem_singleton] at hx
    rw [hx]
    simp [Ann.valid, Det.valid]
  all_goals decide +kernel

/-! ## An instance -/

/-- Two detections in two calls. -/
def sampleCalls : List History :=
  [[(⟨"d0", [], [⟨"p", ["a"], [1 / 2], ""⟩], ""⟩, fun _ _ => 0)],
   [(⟨"d1", [⟨"g0", ["a"], [], ""⟩, ⟨"g1", ["c"], [], ""⟩], [⟨"p0", ["a"], [9 / 10], ""⟩, ⟨"p1", ["b"], [8 / 10], ""⟩], ""⟩,
     fun p g => if p = 0 ∧ g = 0 then 7 / 10 else 0)]]

theorem sampleCalls_ok : HistoryOk sampleCalls.flatten ∧ OneLabel sampleCalls.flatten ∧ SizesOk (Loader.init.addAll sampleCalls) := by
  refine ⟨⟨?_, ?_, ?_⟩, ?_, ⟨by decide +kernel, by decide +kernel, by decide +kernel, by decide +kernel⟩⟩
  · simp [sampleCalls]
  · simp [sampleCalls]
  · intro x hx p g
    simp only [sampleCalls, List.flatten_cons, List.flatten_nil, List.append_nil, List.cons_append, List.nil_append, List.mem_cons,
      List.not_mem_nil, or_false] at hx
    rcases hx with rfl | rfl
    · exact ⟨le_refl _, zero_le_one⟩
    · dsimp only
      split <;> norm_num
  · unfold OneLabel
    simp [sampleCalls]

example : Holding sampleCalls (fun _ => true) (rowsIn [sortBy (fun f : FRow => rankKey f.row) (Loader.init.addAll sampleCalls).rows.flatten]) ∧
    gtNumber (selected sampleCalls.flatten (fun _ => true)) "a" = 1 ∧ pdNumber (selected sampleCalls.flatten (fun _ => true)) (1 / 2) "a" = 2 :=
  ⟨holding_of_stored (stored_mem _ _), by decide +kernel, by decide +kernel⟩

end Verif.Detection
