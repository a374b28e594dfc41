import Verif.Detection.RenamedReport
import Verif.Detection.ShardProps

/-!
# C99 (detection): detections that the cache refuses
-/

namespace Verif.Detection

open Verif.Cache (sortBy)
open Verif.Shared (extractLabels C50_extract)

/-- One iteration of `_add_data` (`object_detection/loader.py` 57-192) when the writer may refuse the rows: `fits` says whether
`RecordBatch.from_pylist(rows, schema=..)` succeeds (`cache/ephemeral.py` 190, `cache/persistent.py` 393). A refusal comes after the labels
have been added and the counters increased. The exception itself is not part of the result; it ends the call. -/
def Loader.offer (s : Loader) (x : Det × (Nat → Nat → Rat)) (fits : Bool) : Loader :=
  let r := exec (detSteps x.1 x.2 s.datums s.gts s.pds) s.labels
  ⟨r.1, s.datums + 1, s.gts + x.1.gts.length, s.pds + x.1.pds.length, if fits then s.rows ++ [r.2] else s.rows⟩

/-- Detections with their IoUs, each with the answer of the writer. -/
abbrev Offers := List ((Det × (Nat → Nat → Rat)) × Bool)

/-- A caller who adds detections one by one and ignores the exceptions. -/
def Loader.offerAll (s : Loader) (offers : Offers) : Loader := offers.foldl (fun s x => s.offer x.1 x.2) s

/-- The detections that were offered. -/
def offered (offers : Offers) : History := offers.map Prod.fst

/-- The detections that were accepted. -/
def written (offers : Offers) : History := (offers.filter (fun x => x.2)).map Prod.fst

/-- The accepted offers with their positions. -/
def places' (offers : Offers) : List (((Det × (Nat → Nat → Rat)) × Bool) × Nat) := offers.zipIdx.filter (fun y => y.1.2)

theorem written_places (offers : Offers) : written offers = (places' offers).map (fun y => y.1.1) := by
  unfold written places'
  have : offers.zipIdx.map Prod.fst = offers := List.zipIdx_map_fst 0 offers
  conv_lhs => rw [← this]
  rw [List.filter_map, List.map_map]
  rfl

theorem place_get {offers : Offers} {y : ((Det × (Nat → Nat → Rat)) × Bool) × Nat} (h : y ∈ places' offers) :
    offers[y.2]? = some y.1 ∧ y.1.2 = true := by
  obtain ⟨h1, h2⟩ := List.mem_filter.1 h
  exact ⟨mem_zipIdx'.1 h1, h2⟩

theorem offered_get {offers : Offers} {k : Nat} {y : (Det × (Nat → Nat → Rat)) × Bool} (h : offers[k]? = some y) : (offered offers)[k]? = some y.1 := by
  unfold offered
  rw [List.getElem?_map, h]
  rfl

/-- A loader after some offers: labels and counters of all, rows of the accepted ones. -/
structure KeepsOffers (s : Loader) (offers : Offers) : Prop where
  labels : s.labels = (Loader.init.addAll [offered offers]).labels
  datums : s.datums = (Loader.init.addAll [offered offers]).datums
  gts : s.gts = (Loader.init.addAll [offered offers]).gts
  pds : s.pds = (Loader.init.addAll [offered offers]).pds
  rows : ∀ L, s.labels <+: L → s.rows = (places' offers).map (fun y =>
    rowsOf L y.1.1.1 y.1.1.2 y.2 (gtOffset (offered offers) y.2) (pdOffset (offered offers) y.2))

theorem keepsOffers_init : KeepsOffers Loader.init [] := ⟨rfl, rfl, rfl, rfl, fun _ _ => rfl⟩

theorem addAll_snoc (H : History) (x : Det × (Nat → Nat → Rat)) : Loader.init.addAll [H ++ [x]] = (Loader.init.addAll [H]).addOne x := by
  unfold Loader.addAll Loader.addData
  simp only [List.foldl_cons, List.foldl_nil, List.foldl_append]

theorem KeepsOffers.offer {s : Loader} {offers : Offers} (h : KeepsOffers s offers) (x : Det × (Nat → Nat → Rat)) (fits : Bool) :
    KeepsOffers (s.offer x fits) (offers ++ [(x, fits)]) := by
  have ho : offered (offers ++ [(x, fits)]) = offered offers ++ [x] := by simp [offered]
  have i := linv_addAll [offered offers]
  have hfl : ([offered offers] : List History).flatten = offered offers := by simp
  rw [hfl] at i
  have hlen : (offered offers).length = offers.length := by simp [offered]
  obtain ⟨c1, c2, _, _, c5⟩ := exec_spec (detSteps x.1 x.2 s.datums s.gts s.pds) s.labels (h.labels ▸ i.nodup)
  have hexec : exec (detSteps x.1 x.2 s.datums s.gts s.pds) s.labels
      = exec (detSteps x.1 x.2 (Loader.init.addAll [offered offers]).datums (Loader.init.addAll [offered offers]).gts
        (Loader.init.addAll [offered offers]).pds) (Loader.init.addAll [offered offers]).labels := by
    rw [h.labels, h.datums, h.gts, h.pds]
  unfold Loader.offer
  refine ⟨?_, ?_, ?_, ?_, ?_⟩
  · rw [ho, addAll_snoc]
    exact congrArg Prod.fst hexec
  · rw [ho, addAll_snoc, h.datums]
    rfl
  · rw [ho, addAll_snoc, h.gts]
    rfl
  · rw [ho, addAll_snoc, h.pds]
    rfl
  · intro L hL
    dsimp only at hL ⊢
    have hold : s.rows = (places' offers).map (fun y =>
        rowsOf L y.1.1.1 y.1.1.2 y.2 (gtOffset (offered offers ++ [x]) y.2) (pdOffset (offered offers ++ [x]) y.2)) := by
      rw [h.rows L (c2.trans hL)]
      apply List.map_congr_left
      intro y hy
      have hk := (List.getElem?_eq_some_iff.1 (place_get hy).1).1
      rw [(offset_append (offered offers) x y.2 (by omega)).1, (offset_append (offered offers) x y.2 (by omega)).2]
    rw [ho]
    cases fits with
    | false =>
      rw [if_neg (by simp), hold]
      simp [places', List.zipIdx_append]
    | true =>
      rw [if_pos rfl, hold]
      have hp : places' (offers ++ [(x, true)]) = places' offers ++ [((x, true), offers.length)] := by
        simp [places', List.zipIdx_append]
      rw [hp, List.map_append]
      congr 1
      simp only [List.map_cons, List.map_nil]
      rw [c5 L hL, ← hlen, (offset_append (offered offers) x _ le_rfl).1, (offset_append (offered offers) x _ le_rfl).2, ← i.gts, ← i.pds,
        h.datums, h.gts, h.pds, i.datums]
      rfl

theorem keepsOffers_all (offers : Offers) : KeepsOffers (Loader.init.offerAll offers) offers := by
  induction offers using List.reverseRecOn with
  | nil => exact keepsOffers_init
  | append_singleton l x ih =>
    unfold Loader.offerAll
    rw [List.foldl_append]
    exact ih.offer x.1 x.2

/-! ## The rows -/

section

variable (offers : Offers)

theorem offered_flat : ([offered offers] : List History).flatten = offered offers := by simp
theorem written_flat : ([written offers] : List History).flatten = written offers := by simp

/-- The rows in the cache, by detection. -/
def keptPieces : List (List Row) := (Loader.init.offerAll offers).rows.map (fun p => p.map FRow.row)

theorem offer_rows : (Loader.init.offerAll offers).rows = (places' offers).map (fun y =>
    rowsOf (Loader.init.addAll [offered offers]).labels y.1.1.1 y.1.1.2 y.2 (gtOffset (offered offers) y.2) (pdOffset (offered offers) y.2)) :=
  (keepsOffers_all offers).rows _ (by rw [(keepsOffers_all offers).labels])

/-- The cache is part of the cache that would hold all offers. -/
theorem offer_sublist : (Loader.init.offerAll offers).rows.Sublist (Loader.init.addAll [offered offers]).rows := by
  have i := (linv_addAll [offered offers]).rows _ List.prefix_rfl
  rw [offered_flat] at i
  rw [i, offer_rows]
  have e : (offered offers).zipIdx = offers.zipIdx.map (fun y => (y.1.1, y.2)) := by
    unfold offered
    rw [List.zipIdx_map]
    rfl
  rw [e, List.map_map]
  exact List.Sublist.map _ List.filter_sublist

/-- The position of an accepted detection among the offers. -/
def position (i : Nat) : Nat := ((places' offers).map Prod.snd).getD i 0

theorem position_get {i : Nat} {y : ((Det × (Nat → Nat → Rat)) × Bool) × Nat} (h : (places' offers)[i]? = some y) : position offers i = y.2 := by
  unfold position
  rw [List.getD_eq_getElem?_getD, List.getElem?_map, h]
  rfl

theorem places_inc : ((places' offers).map Prod.snd).Pairwise (· < ·) := by
  unfold places'
  have h : (offers.zipIdx.map Prod.snd).Pairwise (· < ·) := by
    have : offers.zipIdx.map Prod.snd = List.range' 0 offers.length := List.zipIdx_map_snd 0 offers
    rw [this]
    exact List.pairwise_lt_range'
  exact h.sublist (List.Sublist.map _ List.filter_sublist)

theorem written_get {i : Nat} (hi : i < (written offers).length) : ∃ y, (places' offers)[i]? = some y ∧ (written offers)[i]? = some y.1.1 := by
  rw [written_places, List.length_map] at hi
  refine ⟨(places' offers)[i], List.getElem?_eq_getElem hi, ?_⟩
  rw [written_places, List.getElem?_map, List.getElem?_eq_getElem hi]
  rfl

theorem position_spec : (∀ i < ([written offers] : List History).flatten.length, ∀ j < ([written offers] : List History).flatten.length,
      position offers i = position offers j → i = j) ∧
    ∀ i < ([written offers] : List History).flatten.length, position offers i < ([offered offers] : List History).flatten.length ∧
      ([offered offers] : List History).flatten[position offers i]? = ([written offers] : List History).flatten[i]? := by
  rw [written_flat, offered_flat]
  constructor
  · intro i hi j hj he
    obtain ⟨y, hy, _⟩ := written_get offers hi
    obtain ⟨z, hz, _⟩ := written_get offers hj
    rw [position_get offers hy, position_get offers hz] at he
    have hp := places_inc offers
    rw [List.pairwise_iff_getElem] at hp
    obtain ⟨hi', e1⟩ := List.getElem?_eq_some_iff.1 hy
    obtain ⟨hj', e2⟩ := List.getElem?_eq_some_iff.1 hz
    rcases Nat.lt_trichotomy i j with h | h | h
    · have := hp i j (by simpa using hi') (by simpa using hj') h
      simp only [List.getElem_map, e1, e2] at this
      omega
    · exact h
    · have := hp j i (by simpa using hj') (by simpa using hi') h
      simp only [List.getElem_map, e1, e2] at this
      omega
  · intro i hi
    obtain ⟨y, hy, hw⟩ := written_get offers hi
    have hg := offered_get (place_get (List.mem_of_getElem? hy)).1
    rw [position_get offers hy, hw, hg]
    exact ⟨(List.getElem?_eq_some_iff.1 hg).1, rfl⟩

/-- The move of the rows of the accepted detections. -/
def moved : Row → Row := moveOf (Loader.init.addAll [written offers]).labels (Loader.init.addAll [offered offers]).labels
  ([written offers] : List History).flatten ([offered offers] : List History).flatten (position offers)

theorem kept_moved : keptPieces offers = (loaderPieces [written offers]).map (List.map (moved offers)) := by
  obtain ⟨_, hσ⟩ := position_spec offers
  unfold keptPieces
  rw [offer_rows, loaderPieces_eq, List.map_map, List.map_map]
  apply List.ext_getElem
  · simp [written_places]
  · intro i h1 h2
    simp only [List.length_map, List.length_range] at h1 h2
    have hkx := List.getElem?_eq_getElem h2
    have hy : (places' offers)[i]? = some (places' offers)[i] := List.getElem?_eq_getElem h1
    have hw : ([written offers] : List History).flatten[i]? = some (places' offers)[i].1.1 := by
      rw [written_flat, written_places, List.getElem?_map, hy]
      rfl
    have hpos := position_get offers hy
    simp only [List.getElem_map, List.getElem_range, Function.comp_apply, hw]
    rw [← rowsOf_move (Loader.init.addAll [written offers]).labels (Loader.init.addAll [offered offers]).labels _ _ i
      (gtOffset ([written offers] : List History).flatten i) (pdOffset ([written offers] : List History).flatten i), List.map_map, List.map_map]
    apply List.map_congr_left
    intro f hf
    rw [mem_rowsOf] at hf
    have := moveOf_row (H' := ([offered offers] : List History).flatten) (L' := (Loader.init.addAll [offered offers]).labels) (σ := position offers) hw hf
    simp only [Function.comp_apply]
    unfold moved
    rw [this, hpos, offered_flat]

end

/-! ## Agreement -/

section

variable {offers : Offers} (hH : HistoryOk (offered offers)) (hS : SizesOk (Loader.init.addAll [offered offers]))

theorem written_sub (offers : Offers) : ∀ x ∈ written offers, x ∈ offered offers := by
  intro x hx
  obtain ⟨y, hy, rfl⟩ := List.mem_map.1 hx
  exact List.mem_map_of_mem (List.mem_filter.1 hy).1

theorem written_sublist (offers : Offers) : (written offers).Sublist (offered offers) := List.Sublist.map _ List.filter_sublist

theorem kept_mem {r : Row} (h : r ∈ (keptPieces offers).flatten) : r ∈ loaderRows [offered offers] := by
  unfold keptPieces at h
  rw [← List.map_flatten] at h
  obtain ⟨f, hf, rfl⟩ := List.mem_map.1 h
  exact List.mem_map_of_mem ((offer_sublist offers).flatten.subset hf)

include hH hS

theorem written_ok : HistoryOk ([written offers] : List History).flatten ∧ SizesOk (Loader.init.addAll [written offers]) := by
  rw [written_flat]
  refine ⟨historyOk_sub hH (written_sub offers), ?_⟩
  apply sizesOk_sub (calls := [offered offers]) (by rw [offered_flat]; exact hH) hS
  rw [written_flat, offered_flat]
  exact (written_sublist offers).subperm

/-- The cache after the offers holds the rows of the accepted detections, in the same order, under other ids. -/
theorem refused_all {tables : List (List FRow)} (h : StoredSorted (Loader.init.offerAll offers).rows tables) :
    Reordered (moved offers) (loaderPieces [written offers]) (keptPieces offers) ∧
    (∀ v : String, ∀ r ∈ (loaderPieces [written offers]).flatten,
      ((moved offers r).gl = labelId [offered offers] v ↔ r.gl = labelId [written offers] v) ∧
      ((moved offers r).pl = labelId [offered offers] v ↔ r.pl = labelId [written offers] v)) ∧
    RowsOk (loaderPieces [written offers]).flatten ∧ RowsOk (keptPieces offers).flatten ∧
    Owned (loaderPieces [written offers]).flatten ∧ Owned (keptPieces offers).flatten ∧
    Divides (keptPieces offers).flatten (rowsIn tables) := by
  obtain ⟨hi, hσ⟩ := position_spec offers
  obtain ⟨hW, hSW⟩ := written_ok hH hS
  have hO : HistoryOk ([offered offers] : List History).flatten := by rw [offered_flat]; exact hH
  obtain ⟨a1, a2⟩ := loader_ok hW hSW
  obtain ⟨b1, b2⟩ := loader_ok hO hS
  have hsub : ∀ r ∈ loaderRows [written offers], moved offers r ∈ loaderRows [offered offers] := by
    intro r hr
    apply kept_mem
    rw [kept_moved, ← List.map_flatten, loaderPieces_flatten]
    exact List.mem_map_of_mem hr
  have hasc : (Loader.init.offerAll offers).rows.Pairwise (fun a b => ∀ x ∈ a, ∀ y ∈ b, x.row.datum < y.row.datum) :=
    (loader_ascending [offered offers]).sublist (offer_sublist offers)
  have hasc' : (keptPieces offers).Pairwise (fun a b => ∀ x ∈ a, ∀ y ∈ b, x.datum < y.datum) := by
    unfold keptPieces
    rw [List.pairwise_map]
    refine hasc.imp ?_
    intro a b hab x hx y hy
    obtain ⟨f, hf, rfl⟩ := List.mem_map.1 hx
    obtain ⟨g, hg, rfl⟩ := List.mem_map.1 hy
    exact hab f hf g hg
  refine ⟨⟨?_, ?_, loaderPieces_asc _, hasc', List.Perm.of_eq (kept_moved offers)⟩, ?_, ?_, ?_, ?_, ?_, ?_⟩
  · rw [loaderPieces_flatten]
    exact loader_renames hi hσ a1.form b1.form hsub
  · intro p hp x hx y hy
    unfold loaderPieces at hp
    obtain ⟨q, hq, rfl⟩ := List.mem_map.1 hp
    obtain ⟨k, hk, rfl⟩ := List.getElem_of_mem hq
    obtain ⟨fx, hfx, rfl⟩ := List.mem_map.1 hx
    obtain ⟨fy, hfy, rfl⟩ := List.mem_map.1 hy
    rw [(payload_datum _ k hk fx hfx).1, (payload_datum _ k hk fy hfy).1]
  · intro v r hr
    rw [loaderPieces_flatten] at hr
    obtain ⟨k, x, og, op, h⟩ := move_spec hσ hr
    have e : ∀ L : List String, ((L.idxOf v : Nat) : Int) = idOf L (some v) := fun _ => rfl
    unfold moved labelId
    rw [h.gl.1, h.gl.2, h.pl.1, h.pl.2, e, e, idOf_inj h.og1, idOf_inj h.og2, idOf_inj h.op1, idOf_inj h.op2]
    exact ⟨Iff.rfl, Iff.rfl⟩
  · rw [loaderPieces_flatten]
    exact a1
  · exact ⟨fun r hr => b1.iou r (kept_mem hr), fun r hr => b1.form r (kept_mem hr),
      fun x hx y hy => b1.gts x (kept_mem hx) y (kept_mem hy), b1.pds.subset (fun r hr => kept_mem hr)⟩
  · rw [loaderPieces_flatten]
    exact a2
  · exact b2.subset (fun r hr => kept_mem hr)
  · refine divides_stored h hasc ?_
    unfold keptPieces
    rw [List.map_flatten]
    exact fun _ => rfl

end

/-! ## Labels -/

theorem isRow_uses {L : List String} {d : Det} {iou : Nat → Nat → Rat} {k g0 p0 : Nat} {f : FRow} (hd : DetOk d) (h : IsRow L d iou k g0 p0 f)
    {v : String} (hv : f.gtLabel = some v ∨ f.pdLabel = some v) : UsesLabel d v := by
  have hhead : ∀ a ∈ d.gts, a.labels.headD "" ∈ a.labels := by
    intro a ha
    have := hd.gts a ha
    cases hl : a.labels with
    | nil => exact absurd hl this
    | cons x l => simp
  rcases h with ⟨g, a, hg, _, rfl⟩ | ⟨p, a, l, sc, hp, hz, _, rfl⟩ | ⟨g, ga, p, pa, gl, l, sc, hg, hp, _, hgl, hz, rfl⟩
  · rcases hv with hv | hv
    · have hv : a.labels.headD "" = v := by simpa [gtRow] using hv
      exact Or.inl ⟨a, List.mem_of_getElem? hg, hv ▸ hhead a (List.mem_of_getElem? hg)⟩
    · simp [gtRow] at hv
  · rcases hv with hv | hv
    · simp [pdRow] at hv
    · have hv : l = v := by simpa [pdRow] using hv
      exact Or.inr ⟨a, List.mem_of_getElem? hp, hv ▸ (List.of_mem_zip hz).1⟩
  · rcases hv with hv | hv
    · have hv : gl = v := by simpa [pairRow] using hv
      exact Or.inl ⟨ga, List.mem_of_getElem? hg, hv ▸ hgl⟩
    · have hv : l = v := by simpa [pairRow] using hv
      exact Or.inr ⟨pa, List.mem_of_getElem? hp, hv ▸ (List.of_mem_zip hz).1⟩

/-- The label table of a loader holds the labels of its annotations. -/
theorem mem_labels {H : History} (hH : HistoryOk H) (v : String) : v ∈ (Loader.init.addAll [H]).labels ↔ ∃ x ∈ H, UsesLabel x.1 v := by
  have hfl : ([H] : List History).flatten = H := by simp
  constructor
  · intro hv
    obtain ⟨x, hx, hst⟩ := labels_used [H] v hv
    rw [hfl] at hx
    obtain ⟨r, hr, hv⟩ := step_label_row hst (hH.detOk hx) [] 0 0 0
    exact ⟨x, hx, isRow_uses (hH.detOk hx) hr hv⟩
  · rintro ⟨x, hx, hu⟩
    obtain ⟨k, hk⟩ := List.mem_iff_getElem?.1 hx
    have hd := hH.detOk hx
    rw [← hfl] at hk
    rcases hu with ⟨a, ha, hv⟩ | ⟨a, ha, hv⟩
    · obtain ⟨g, hg⟩ := List.mem_iff_getElem?.1 ha
      obtain ⟨r, hr, _, _, _, _, ht⟩ := C34_groundtruths (Loader.init.addAll [H]).labels x.1 x.2 k (gtOffset ([H] : List History).flatten k)
        (pdOffset ([H] : List History).flatten k) hd.valid (fun a ha => (hd.pds a ha).1) hg (hd.gts a ha)
      have := (isRow_labels [H] hk hr).1 _ ht
      have hone := hH.gtLabel x hx a ha
      match hl : a.labels, hone, hv with
      | [w], _, hv =>
        rw [hl] at this
        rw [List.mem_singleton.1 hv]
        exact this
    · obtain ⟨g, hg⟩ := List.mem_iff_getElem?.1 ha
      obtain ⟨i, hi, rfl⟩ := List.getElem_of_mem hv
      have hs := (hd.pds a ha).2
      have hz : (a.labels[i], a.scores[i]'(by omega)) ∈ a.labels.zip a.scores := by
        rw [List.mem_iff_getElem]
        exact ⟨i, by rw [List.length_zip]; omega, by simp⟩
      obtain ⟨r, hr, _, _, _, _, _, ht⟩ := C34_predictions (Loader.init.addAll [H]).labels x.1 x.2 k (gtOffset ([H] : List History).flatten k)
        (pdOffset ([H] : List History).flatten k) hd.gts hg hz
      exact (isRow_labels [H] hk hr).2 _ ht

/-- The labels that `extract_labels` reads from the tables. -/
def tableLabels (tables : List (List FRow)) : List (Nat × String) :=
  (extractLabels (tables.map (fun t => t.map labelCols))).map (fun x => (x.1.toNat, x.2))

/-- The extracted labels are those of the accepted detections, with the ids of the loader. -/
theorem extracted {offers : Offers} (hH : HistoryOk (offered offers)) {tables : List (List FRow)} (h : Stored (Loader.init.offerAll offers).rows tables) :
    ((tableLabels tables).map Prod.fst).Nodup ∧ ∀ lb : Nat × String, lb ∈ tableLabels tables ↔
      (Loader.init.addAll [offered offers]).labels[lb.1]? = some lb.2 ∧ ∃ x ∈ written offers, UsesLabel x.1 lb.2 := by
  set L := (Loader.init.addAll [offered offers]).labels with hLdef
  have hnd : L.Nodup := (linv_addAll [offered offers]).nodup
  have hflat : (tables.map (fun t => t.map labelCols)).flatten = tables.flatten.map labelCols := by
    rw [List.map_flatten]
  have hmem : ∀ f, f ∈ tables.flatten ↔ ∃ y ∈ places' offers, IsRow L y.1.1.1 y.1.1.2 y.2 (gtOffset (offered offers) y.2) (pdOffset (offered offers) y.2) f := by
    intro f
    rw [stored_mem_iff h, offer_rows, List.mem_flatten]
    constructor
    · rintro ⟨p, hp, hf⟩
      obtain ⟨y, hy, rfl⟩ := List.mem_map.1 hp
      exact ⟨y, hy, (mem_rowsOf _ _ _ _ _ _ _).1 hf⟩
    · rintro ⟨y, hy, hf⟩
      exact ⟨_, List.mem_map_of_mem hy, (mem_rowsOf _ _ _ _ _ _ _).2 hf⟩
  have hplace : ∀ y ∈ places' offers, y.1.1 ∈ written offers ∧ DetOk y.1.1.1 ∧ ([offered offers] : List History).flatten[y.2]? = some y.1.1 := by
    intro y hy
    have hw : y.1.1 ∈ written offers := by rw [written_places]; exact List.mem_map_of_mem (f := fun y => y.1.1) hy
    refine ⟨hw, hH.detOk (written_sub offers _ hw), ?_⟩
    rw [offered_flat]
    exact offered_get (place_get hy).1
  have hin : ∀ y ∈ places' offers, ∀ f, IsRow L y.1.1.1 y.1.1.2 y.2 (gtOffset (offered offers) y.2) (pdOffset (offered offers) y.2) f →
      (∀ v, f.gtLabel = some v → v ∈ L) ∧ ∀ v, f.pdLabel = some v → v ∈ L := by
    intro y hy f hf
    have := isRow_labels [offered offers] (k := y.2) (x := y.1.1) (f := f) (hplace y hy).2.2
    rw [offered_flat] at this
    exact this hf
  have hlab : ∀ v ∈ L, L[L.idxOf v]? = some v := by
    intro v hv
    rw [List.getElem?_eq_getElem (List.idxOf_lt_length_of_mem hv)]
    simp
  obtain ⟨h1, h2⟩ := C50_extract (f := fun i => (L[i.toNat]?).getD "") (tables.map (fun t => t.map labelCols)) (by
    rw [hflat]
    intro r hr
    obtain ⟨f, hf, rfl⟩ := List.mem_map.1 hr
    obtain ⟨y, hy, hrow⟩ := (hmem f).1 hf
    obtain ⟨t1, t2⟩ := hrow.texts
    obtain ⟨l1, l2⟩ := hin y hy f hrow
    simp only [labelCols]
    constructor
    · intro hne
      rcases t1 with ⟨_, e, _⟩ | ⟨v, e1, e2, _⟩
      · exact absurd e hne
      · rw [e1, e2, Int.toNat_natCast, hlab v (l1 v e1)]
    · intro hne
      rcases t2 with ⟨_, e, _⟩ | ⟨v, e1, e2, _⟩
      · exact absurd e hne
      · rw [e1, e2, Int.toNat_natCast, hlab v (l2 v e1)])
  set D := extractLabels (tables.map (fun t => t.map labelCols)) with hD
  have hlook : ∀ x, x ∈ D ↔ D.lookup x.1 = some x.2 := by
    intro x
    rw [List.lookup_eq_some_iff]
    constructor
    · intro hx
      obtain ⟨l1, l2, he⟩ := List.append_of_mem hx
      refine ⟨l1, l2, he, ?_⟩
      intro p hp
      rw [he, List.map_append, List.nodup_append] at h1
      have := h1.2.2 p.1 (List.mem_map_of_mem (f := Prod.fst) hp) x.1 (by simp)
      simpa using this.symm
    · rintro ⟨l1, l2, he, _⟩
      rw [he]
      simp
  have hiff : ∀ (i : Int) (s : String), (i, s) ∈ D ↔ 0 ≤ i ∧ L[i.toNat]? = some s ∧ ∃ x ∈ written offers, UsesLabel x.1 s := by
    intro i s
    rw [hlook, h2, hflat]
    dsimp only
    constructor
    · rintro ⟨⟨hne, r, hr, he⟩, rfl⟩
      obtain ⟨f, hf, rfl⟩ := List.mem_map.1 hr
      obtain ⟨y, hy, hrow⟩ := (hmem f).1 hf
      obtain ⟨t1, t2⟩ := hrow.texts
      obtain ⟨l1, l2⟩ := hin y hy f hrow
      obtain ⟨hw, hok, _⟩ := hplace y hy
      simp only [labelCols] at he
      rcases he with rfl | rfl
      · rcases t1 with ⟨_, e, _⟩ | ⟨v, e1, e2, _⟩
        · exact absurd e hne
        · rw [e2, Int.toNat_natCast, hlab v (l1 v e1)]
          exact ⟨by omega, rfl, _, hw, isRow_uses hok hrow (Or.inl e1)⟩
      · rcases t2 with ⟨_, e, _⟩ | ⟨v, e1, e2, _⟩
        · exact absurd e hne
        · rw [e2, Int.toNat_natCast, hlab v (l2 v e1)]
          exact ⟨by omega, rfl, _, hw, isRow_uses hok hrow (Or.inr e1)⟩
    · rintro ⟨h0, hs, x, hx, hu⟩
      have hxm := (mem_labels (historyOk_sub hH (written_sub offers)) s).2 ⟨x, hx, hu⟩
      obtain ⟨x', hx', hst⟩ := labels_used [written offers] s hxm
      rw [written_flat, written_places] at hx'
      obtain ⟨y, hy, rfl⟩ := List.mem_map.1 hx'
      obtain ⟨hw, hok, _⟩ := hplace y hy
      obtain ⟨f, hf, hv⟩ := step_label_row hst hok L y.2 (gtOffset (offered offers) y.2) (pdOffset (offered offers) y.2)
      have hid : ((L.idxOf s : Nat) : Int) = i := by
        obtain ⟨hi, e⟩ := List.getElem?_eq_some_iff.1 hs
        rw [← e, hnd.idxOf_getElem]
        omega
      refine ⟨⟨by omega, labelCols f, List.mem_map_of_mem ((hmem f).2 ⟨y, hy, hf⟩), ?_⟩, by rw [hs]; rfl⟩
      obtain ⟨t1, t2⟩ := hf.texts
      simp only [labelCols]
      rcases hv with hv | hv
      · rcases t1 with ⟨e, _⟩ | ⟨v, e1, e2, _⟩
        · rw [e] at hv; cases hv
        · rw [e1] at hv
          cases hv
          exact Or.inl (e2.trans hid)
      · rcases t2 with ⟨e, _⟩ | ⟨v, e1, e2, _⟩
        · rw [e] at hv; cases hv
        · rw [e1] at hv
          cases hv
          exact Or.inr (e2.trans hid)
  constructor
  · unfold tableLabels
    rw [List.map_map]
    have e : (D.map (Prod.fst ∘ fun x => (x.1.toNat, x.2))) = (D.map Prod.fst).map Int.toNat := by rw [List.map_map]; rfl
    rw [e]
    apply List.Nodup.map_on _ h1
    intro a ha b hb hab
    obtain ⟨x, hx, rfl⟩ := List.mem_map.1 ha
    obtain ⟨y, hy, rfl⟩ := List.mem_map.1 hb
    have := ((hiff x.1 x.2).1 hx).1
    have := ((hiff y.1 y.2).1 hy).1
    omega
  · intro lb
    unfold tableLabels
    rw [List.mem_map]
    constructor
    · rintro ⟨x, hx, rfl⟩
      exact ((hiff x.1 x.2).1 hx).2
    · intro hlb
      exact ⟨((lb.1 : Int), lb.2), (hiff _ _).2 ⟨by omega, by simpa using hlb⟩, by simp⟩

theorem down_closed {l : List Nat} (hn : l.Nodup) (h : ∀ k ∈ l, ∀ i < k, i ∈ l) : l.Perm (List.range l.length) := by
  have hb : ∀ k ∈ l, k < l.length := by
    intro k hk
    have : (List.range (k + 1)).Subperm l := List.nodup_range.subperm (by
      intro i hi
      rw [List.mem_range] at hi
      rcases Nat.lt_or_ge i k with h' | h'
      · exact h k hk i h'
      · have : i = k := by omega
        rw [this]
        exact hk)
    have := this.length_le
    simp at this
    omega
  exact (hn.subperm (fun k hk => List.mem_range.2 (hb k hk))).perm_of_length_le (by simp)

/-! ## C99 -/

/-- A label that only refused detections carry got an id below the id of a label that an accepted detection carries. -/
def Gap (offers : Offers) : Prop := ∃ o v : String, o ∈ (Loader.init.offerAll offers).labels ∧
  (Loader.init.offerAll offers).labels.idxOf o < (Loader.init.offerAll offers).labels.idxOf v ∧
  (∀ x ∈ written offers, ¬ UsesLabel x.1 o) ∧ ∃ x ∈ written offers, UsesLabel x.1 v

/-- The request of C99: the evaluator built after the offers and one built from the accepted detections give the same metrics. -/
def NoTrace (P : Offers → Prop) : Prop :=
  ∀ offers : Offers, HistoryOk (offered offers) → SizesOk (Loader.init.offerAll offers) → (∃ x ∈ written offers, ∃ v, UsesLabel x.1 v) → P offers →
    ∀ t1 t2 : List (List FRow), StoredSorted (Loader.init.offerAll offers).rows t1 → StoredSorted (Loader.init.addAll [written offers]).rows t2 →
    ∀ c1 c2 : List (List RRow), RankedOf (rowsIn t1) c1.flatten → RankedOf (rowsIn t2) c2.flatten →
    ∀ order : List Rat → List Nat, IsArgsort order → ∀ ious scores : List Rat, ious ≠ [] → scores ≠ [] →
    ∃ R A, computePrecisionRecall order (tableLabels t1) (rowsIn t1) c1 ious scores = .ok R ∧
      computePrecisionRecall order (tableLabels t2) (rowsIn t2) c2 ious scores = .ok A ∧ R.all.Perm A.all

theorem sizes_offered {offers : Offers} (h : SizesOk (Loader.init.offerAll offers)) : SizesOk (Loader.init.addAll [offered offers]) := by
  have k := keepsOffers_all offers
  exact ⟨by rw [← k.labels]; exact h.labels, by rw [← k.gts]; exact h.gts, by rw [← k.pds]; exact h.pds, by rw [← k.datums]; exact h.datums⟩

theorem holding_offered {offers : Offers} {tables : List (List FRow)} (h : StoredSorted (Loader.init.offerAll offers).rows tables)
    (hc : Aligned (rowsIn tables)) : Holding [offered offers] (fun k => (offers[k]?.map Prod.snd).getD false) (rowsIn tables) := by
  refine ⟨hc, fun r => ?_⟩
  rw [rowsIn_flatten, List.mem_map, offered_flat]
  constructor
  · rintro ⟨f, hf, he⟩
    rw [stored_mem_iff h.stored, offer_rows, List.mem_flatten] at hf
    obtain ⟨p, hp, hf⟩ := hf
    obtain ⟨y, hy, rfl⟩ := List.mem_map.1 hp
    obtain ⟨h1, h2⟩ := place_get hy
    exact ⟨y.2, y.1.1, f, by rw [h1]; exact h2, offered_get h1, (mem_rowsOf _ _ _ _ _ _ _).1 hf, he⟩
  · rintro ⟨k, x, f, hk, hx, hf, he⟩
    refine ⟨f, ?_, he⟩
    rw [stored_mem_iff h.stored, offer_rows, List.mem_flatten]
    have hx' := hx
    unfold offered at hx'
    rw [List.getElem?_map, Option.map_eq_some_iff] at hx'
    obtain ⟨y, hy, rfl⟩ := hx'
    have hk' : y.2 = true := by rw [hy] at hk; exact hk
    refine ⟨_, List.mem_map_of_mem (List.mem_filter.2 ⟨mem_zipIdx'.2 hy, hk'⟩), (mem_rowsOf _ _ _ _ _ _ _).2 hf⟩

/-- **C99 (detection).** If no label that only refused detections carry got an id below the id of a label that was accepted: the report after the
offers is the report of the accepted detections alone, up to the order of the metrics. -/
theorem C99_detection_partial : NoTrace (fun offers => ¬ Gap offers) := by
  intro offers hH hS hne hgap t1 t2 h1 h2 c1 c2 r1 r2 order ho ious scores hi hs
  have hLab := (keepsOffers_all offers).labels
  unfold Gap at hgap
  rw [hLab] at hgap
  have hS := sizes_offered hS
  obtain ⟨hren, hl, a1, a2, a3, a4, d1⟩ := refused_all hH hS h1
  obtain ⟨hW, hSW⟩ := written_ok hH hS
  have d2 := loader_divides h2
  rw [← loaderPieces_flatten] at d2
  have hc1 := divides_ok d1 a2
  obtain ⟨e1, e2⟩ := extracted hH h1.stored
  have hWH : HistoryOk (written offers) := by rw [← written_flat]; exact hW
  obtain ⟨g1, g2⟩ := C60_end_to_end [written offers] (fun x hx => hW.detOk hx) hW hSW (by
    obtain ⟨x, hx, v, hv⟩ := hne
    exact List.ne_nil_of_mem ((mem_labels hWH v).2 ⟨x, hx, hv⟩)) h2.stored r2 rfl ho hi hs
  have hndL : (Loader.init.addAll [offered offers]).labels.Nodup := (linv_addAll [offered offers]).nodup
  have hndW : (Loader.init.addAll [written offers]).labels.Nodup := (linv_addAll [written offers]).nodup
  have hget : ∀ v ∈ (Loader.init.addAll [offered offers]).labels,
      (Loader.init.addAll [offered offers]).labels[(Loader.init.addAll [offered offers]).labels.idxOf v]? = some v := by
    intro v hv
    rw [List.getElem?_eq_getElem (List.idxOf_lt_length_of_mem hv)]
    simp
  have hidx : ∀ {L : List String} {k : Nat} {v : String}, L.Nodup → L[k]? = some v → L.idxOf v = k := by
    intro L k v hn h
    obtain ⟨hk, rfl⟩ := List.getElem?_eq_some_iff.1 h
    exact hn.idxOf_getElem k hk
  have hsubL : ∀ v, (∃ x ∈ written offers, UsesLabel x.1 v) → v ∈ (Loader.init.addAll [offered offers]).labels := by
    rintro v ⟨x, hx, hv⟩
    exact (mem_labels hH v).2 ⟨x, written_sub offers x hx, hv⟩
  have hkeys : ((tableLabels t1).map Prod.fst).Perm (List.range (tableLabels t1).length) := by
    have := down_closed e1 (by
      intro k hk i hik
      obtain ⟨lb, hlb, rfl⟩ := List.mem_map.1 hk
      obtain ⟨q1, q2⟩ := (e2 lb).1 hlb
      have hlt := (List.getElem?_eq_some_iff.1 q1).1
      have hi' := List.getElem?_eq_getElem (Nat.lt_trans hik hlt)
      set o := (Loader.init.addAll [offered offers]).labels[i] with ho'
      have hused : ∃ x ∈ written offers, UsesLabel x.1 o := by
        by_contra hcon
        push Not at hcon
        refine hgap ⟨o, lb.2, List.mem_of_getElem? hi', ?_, hcon, q2⟩
        rw [hidx hndL hi', hidx hndL q1]
        exact hik
      exact List.mem_map.2 ⟨(i, o), (e2 (i, o)).2 ⟨hi', hused⟩, rfl⟩)
    simpa using this
  have hkey : ∀ v, (∃ x ∈ written offers, UsesLabel x.1 v) →
      ((Loader.init.addAll [offered offers]).labels.idxOf v) < (tableLabels t1).length := by
    intro v hv
    have : (Loader.init.addAll [offered offers]).labels.idxOf v ∈ (tableLabels t1).map Prod.fst :=
      List.mem_map.2 ⟨(_, v), (e2 (_, v)).2 ⟨hget v (hsubL v hv), hv⟩, rfl⟩
    exact List.mem_range.1 (hkeys.mem_iff.1 this)
  have hhold := holding_offered h1 hc1.aligned
  have hOH : HistoryOk ([offered offers] : List History).flatten := by rw [offered_flat]; exact hH
  have hbelow : LabelsBelow (tableLabels t1).length (rowsIn t1).flatten := by
    intro r hr
    rw [divides_mem d1, kept_moved, ← List.map_flatten, List.mem_map] at hr
    obtain ⟨q, hq, rfl⟩ := hr
    rw [loaderPieces_flatten] at hq
    obtain ⟨k, x, og, op, h⟩ := move_spec (position_spec offers).2 hq
    have hin : ∀ v, v ∈ (Loader.init.addAll [written offers]).labels → ((Loader.init.addAll [offered offers]).labels.idxOf v : Int) < (tableLabels t1).length := by
      intro v hv
      exact_mod_cast hkey v ((mem_labels hWH v).1 hv)
    have hq' : moved offers q ∈ loaderRows [offered offers] := by
      apply kept_mem
      rw [kept_moved, ← List.map_flatten, loaderPieces_flatten]
      exact List.mem_map_of_mem hq
    have hr0 := labelsBelow_of_holding hhold (moved offers q) ((divides_mem d1 _).2 (by
      rw [kept_moved, ← List.map_flatten, loaderPieces_flatten]
      exact List.mem_map_of_mem hq))
    constructor
    · intro h0
      refine ⟨(hr0.1 h0).1, ?_⟩
      have e : (moved offers q).gl = idOf (Loader.init.addAll [offered offers]).labels og := h.gl.2
      cases hog : og with
      | none =>
        have := (hr0.1 h0).1
        rw [e, hog] at this
        simp [idOf] at this
      | some v =>
        rw [e, hog]
        exact hin v (h.og1 v hog)
    · intro h0
      refine ⟨(hr0.2 h0).1, ?_⟩
      have e : (moved offers q).pl = idOf (Loader.init.addAll [offered offers]).labels op := h.pl.2
      cases hog : op with
      | none =>
        have := (hr0.2 h0).1
        rw [e, hog] at this
        simp [idOf] at this
      | some v =>
        rw [e, hog]
        exact hin v (h.op1 v hog)
  have hok := C60_report hc1 r1 rfl ho (labels := tableLabels t1) (by
    intro he
    obtain ⟨x, hx, v, hv⟩ := hne
    have := hkey v ⟨x, hx, hv⟩
    rw [he] at this
    simp at this) hkeys hbelow (fun l => by
      have q1 := gtCount_bound hhold hc1 hOH l
      have q2 := hS.gts
      omega) hi hs
  refine ⟨_, _, hok, g2, ?_⟩
  have hg1 : ∀ lb, lb ∈ tableLabels t2 ↔ (Loader.init.addAll [written offers]).labels[lb.1]? = some lb.2 := g1
  have hlid : ∀ x ∈ tableLabels t2, (x.1 : Int) = labelId [written offers] x.2 := by
    intro x hx
    unfold labelId
    rw [hidx hndW ((hg1 x).1 hx)]
  have hgt : ∀ v, gtCount (rowsIn t1) (labelId [offered offers] v) = gtCount (rowsIn t2) (labelId [written offers] v) :=
    fun v => hren.gtCount a1 a2 d2 d1 (fun r hr => (hl v r hr).1)
  have htf : ∀ t s v, tpTotal t s c1 (labelId [offered offers] v) = tpTotal t s c2 (labelId [written offers] v) ∧
      fpTotal t s c1 (labelId [offered offers] v) = fpTotal t s c2 (labelId [written offers] v) :=
    fun t s v => hren.tp_fp a1 a2 d2 d1 r2 r1 rfl rfl (fun r hr => (hl v r hr).2) t s
  have hcv : ∀ t n v, (curveOf t n (labelId [offered offers] v) c1).prec = (curveOf t n (labelId [written offers] v) c2).prec ∧
      (curveOf t n (labelId [offered offers] v) c1).score = (curveOf t n (labelId [written offers] v) c2).score :=
    fun t n v => hren.curve_same (kept_moved offers) a1 a2 d2 d1 r2 r1 rfl rfl (fun r hr => (hl v r hr).2) t n
  have hgdef : ∀ x : Nat × String, (((Loader.init.addAll [offered offers]).labels.idxOf x.2 : Nat) : Int) = labelId [offered offers] x.2 := fun _ => rfl
  apply expectedReport_renamed (la := tableLabels t2) (lb := tableLabels t1)
    (fun x => ((Loader.init.addAll [offered offers]).labels.idxOf x.2, x.2))
  · have hnd2 : (tableLabels t2).Nodup := by
      have := (loaded_labels [written offers] (fun x hx => hW.detOk hx) h2.stored).2.2.2
      exact List.Nodup.of_map Prod.snd this
    have hsnd : ∀ a ∈ tableLabels t2, ∀ b ∈ tableLabels t2, a.2 = b.2 → a = b := by
      intro a ha b hb he
      have qa := hlid a ha
      have qb := hlid b hb
      rw [he, ← qb] at qa
      exact Prod.ext (by exact_mod_cast qa) he
    rw [List.perm_ext_iff_of_nodup (List.Nodup.of_map Prod.fst e1) (List.Nodup.map_on (fun a ha b hb he => hsnd a ha b hb (Prod.mk.inj he).2) hnd2)]
    intro lb
    rw [e2, List.mem_map]
    constructor
    · rintro ⟨q1, q2⟩
      have hv := (mem_labels hWH lb.2).2 q2
      refine ⟨((Loader.init.addAll [written offers]).labels.idxOf lb.2, lb.2), (hg1 _).2 ?_, ?_⟩
      · rw [List.getElem?_eq_getElem (List.idxOf_lt_length_of_mem hv)]
        simp
      · exact Prod.ext (hidx hndL q1) rfl
    · rintro ⟨x, hx, rfl⟩
      have hv := (mem_labels hWH x.2).1 (List.mem_of_getElem? ((hg1 x).1 hx))
      exact ⟨hget _ (hsubL _ hv), hv⟩
  · intro x _
    rfl
  · intro x hx
    rw [hgdef, hlid x hx, hgt]
  · intro t s x hx
    rw [hgdef, hlid x hx, (htf t s x.2).1]
  · intro t s x hx
    rw [hgdef, hlid x hx, (htf t s x.2).2]
  · intro t x hx
    rw [hgdef, hlid x hx, hgt, (hcv t _ x.2).1]
  · intro t x hx
    rw [hgdef, hlid x hx, hgt, (hcv t _ x.2).2]

/-- **C99 (detection, confusion matrix).** Whatever was refused: the cells and the unmatched annotations of each label are those of the accepted
detections alone. -/
theorem C99_detection_confusion {offers : Offers} (hH : HistoryOk (offered offers)) (hS : SizesOk (Loader.init.offerAll offers))
    {t1 t2 : List (List FRow)} (h1 : StoredSorted (Loader.init.offerAll offers).rows t1) (h2 : StoredSorted (Loader.init.addAll [written offers]).rows t2)
    (t s : Rat) :
    let id := fun v : String => (((Loader.init.offerAll offers).labels.idxOf v : Nat) : Int)
    (∀ g p : String, cmTotal (rowsIn t1) t s (id g) (id p) = cmTotal (rowsIn t2) t s (labelId [written offers] g) (labelId [written offers] p)) ∧
    (∀ v : String, unmatchedGtTotal (rowsIn t1) t s (id v) = unmatchedGtTotal (rowsIn t2) t s (labelId [written offers] v)) ∧
    (∀ v : String, unmatchedPdTotal (rowsIn t1) t s (id v) = unmatchedPdTotal (rowsIn t2) t s (labelId [written offers] v)) := by
  have hS := sizes_offered hS
  obtain ⟨hf, hl, _, _, k1, k2, d1⟩ := refused_all hH hS h1
  have d2 := loader_divides h2
  rw [← loaderPieces_flatten] at d2
  rw [(keepsOffers_all offers).labels]
  refine ⟨?_, ?_, ?_⟩
  · intro g p
    exact hf.total k1 k2 d2 d1 (additive_cm t s _ _) (additive_cm t s _ _)
      (fun rows hr hren ho ho' => hren.cmCell ho ho' t s (fun r h => (hl g r (hr r h)).1) (fun r h => (hl p r (hr r h)).2))
  · intro v
    exact hf.total k1 k2 d2 d1 (additive_gt t s _) (additive_gt t s _)
      (fun rows hr hren ho ho' => hren.unmatchedGt ho ho' t s (fun r h => (hl v r (hr r h)).1))
  · intro v
    exact hf.total k1 k2 d2 d1 (additive_pd t s _) (additive_pd t s _)
      (fun rows hr hren ho ho' => hren.unmatchedPd ho ho' t s (fun r h => (hl v r (hr r h)).2))

/-- **C99 (detection) fails** exactly in the other case: then every request for metrics raises. -/
theorem C99_detection_gap {offers : Offers} (hH : HistoryOk (offered offers)) (hgap : Gap offers)
    {tables : List (List FRow)} (h : Stored (Loader.init.offerAll offers).rows tables) (chunks : List (List RRow)) (order : List Rat → List Nat)
    (ious scores : List Rat) : ∃ e, computePrecisionRecall order (tableLabels tables) (rowsIn tables) chunks ious scores = .error e := by
  unfold Gap at hgap
  rw [(keepsOffers_all offers).labels] at hgap
  obtain ⟨o, v, ho, hlt, hno, hv⟩ := hgap
  obtain ⟨e1, e2⟩ := extracted hH h
  have hndL : (Loader.init.addAll [offered offers]).labels.Nodup := (linv_addAll [offered offers]).nodup
  have hvL : v ∈ (Loader.init.addAll [offered offers]).labels := by
    obtain ⟨x, hx, hu⟩ := hv
    exact (mem_labels hH v).2 ⟨x, written_sub offers x hx, hu⟩
  have hget : ∀ v ∈ (Loader.init.addAll [offered offers]).labels,
      (Loader.init.addAll [offered offers]).labels[(Loader.init.addAll [offered offers]).labels.idxOf v]? = some v := by
    intro v hv
    rw [List.getElem?_eq_getElem (List.idxOf_lt_length_of_mem hv)]
    simp
  have hbad : (tableLabels tables).any (fun lb => decide (lb.1 ≥ (tableLabels tables).length)) = true := by
    by_contra hcon
    rw [Bool.not_eq_true, List.any_eq_false] at hcon
    have hb : ∀ k ∈ (tableLabels tables).map Prod.fst, k < (tableLabels tables).length := by
      intro k hk
      obtain ⟨lb, hlb, rfl⟩ := List.mem_map.1 hk
      have := hcon lb hlb
      simpa using this
    have hp : ((tableLabels tables).map Prod.fst).Perm (List.range (tableLabels tables).length) :=
      (e1.subperm (fun k hk => List.mem_range.2 (hb k hk))).perm_of_length_le (by simp)
    have hvk : (Loader.init.addAll [offered offers]).labels.idxOf v ∈ (tableLabels tables).map Prod.fst :=
      List.mem_map.2 ⟨(_, v), (e2 (_, v)).2 ⟨hget v hvL, hv⟩, rfl⟩
    have hok : (Loader.init.addAll [offered offers]).labels.idxOf o ∈ (tableLabels tables).map Prod.fst :=
      hp.mem_iff.2 (List.mem_range.2 (lt_trans hlt (hb _ hvk)))
    obtain ⟨lb, hlb, he⟩ := List.mem_map.1 hok
    obtain ⟨q1, x, hx, hu⟩ := (e2 lb).1 hlb
    rw [he, hget o ho] at q1
    exact hno x hx (Option.some.inj q1 ▸ hu)
  unfold computePrecisionRecall
  split
  · exact ⟨_, rfl⟩
  · split
    · exact ⟨_, rfl⟩
    · split
      · exact ⟨_, rfl⟩
      · cases accumulate (gtCount (rowsIn tables)) (tableLabels tables).length order ious scores chunks with
        | error e => exact ⟨e, rfl⟩
        | ok a =>
          exact ⟨.indexError, rfl⟩

/-- A bird is refused, then a cat is accepted. -/
def birdOffers : Offers :=
  [((⟨"a", [⟨"g", ["bird"], [], ""⟩], [], ""⟩, fun _ _ => 0), false), ((⟨"b", [⟨"h", ["cat"], [], ""⟩], [], ""⟩, fun _ _ => 0), true)]

theorem birdOffers_ok : HistoryOk (offered birdOffers) := by
  refine ⟨?_, ?_, ?_⟩
  · intro x hx a ha
    simp only [birdOffers, offered, List.map_cons, List.map_nil, List.mem_cons, List.not_mem_nil, or_false] at hx
    rcases hx with rfl | rfl <;> simp at ha <;> subst ha <;> rfl
  · intro x hx a ha
    simp only [birdOffers, offered, List.map_cons, List.map_nil, List.mem_cons, List.not_mem_nil, or_false] at hx
    rcases hx with rfl | rfl <;> simp at ha
  · intro x hx p g
    simp only [birdOffers, offered, List.map_cons, List.map_nil, List.mem_cons, List.not_mem_nil, or_false] at hx
    rcases hx with rfl | rfl <;> norm_num

theorem birdOffers_gap : Gap birdOffers := by
  refine ⟨"bird", "cat", by decide +kernel, by decide +kernel, ?_, ?_⟩
  · intro x hx hu
    simp only [birdOffers, written, List.filter_cons, List.filter_nil, List.map_cons, List.map_nil, Bool.false_eq_true, if_false, if_true,
      List.mem_cons, List.not_mem_nil, or_false] at hx
    subst hx
    rcases hu with ⟨a, ha, hv⟩ | ⟨a, ha, hv⟩
    · simp at ha
      subst ha
      simp at hv
    · simp at ha
  · exact ⟨_, by simp [birdOffers, written]; rfl, Or.inl ⟨⟨"h", ["cat"], [], ""⟩, by simp, by simp⟩⟩

/-- **C99 (detection), violation.** After the refused bird no metrics can be computed for the cat. -/
theorem C99_detection_violation : ¬ NoTrace (fun _ => True) := by
  intro h
  obtain ⟨x, hx, hv⟩ := birdOffers_gap.choose_spec.choose_spec.2.2.2
  have hrank : ∀ t : List FRow, RankedOf (rowsIn [t]) [rankTable (t.map FRow.row)].flatten := by
    intro t
    have e : [rankTable (t.map FRow.row)].flatten = rankTable (t.map FRow.row) := by simp
    rw [e]
    exact rankedOf_mem _
  obtain ⟨R, _, h1, _⟩ := h birdOffers birdOffers_ok ⟨by decide +kernel, by decide +kernel, by decide +kernel, by decide +kernel⟩ ⟨x, hx, _, hv⟩ trivial
    _ _ (storedSorted_mem _) (storedSorted_mem _) _ _ (hrank _) (hrank _) stableOrder stableOrder_ok [1/2] [1/2]
    (by simp) (by simp)
  obtain ⟨e, he⟩ := C99_detection_gap birdOffers_ok birdOffers_gap (storedSorted_mem _).stored _ stableOrder [1/2] [1/2]
  rw [h1] at he
  cases he

/-- The conditions of `C99_detection_partial` are met when the refused detection comes last. -/
example : ¬ Gap (birdOffers.map (fun x => (x.1, !x.2))) := by
  rintro ⟨o, v, h1, h2, h3, x, hx, hu⟩
  have hL : (Loader.init.offerAll (birdOffers.map (fun x => (x.1, !x.2)))).labels = ["bird", "cat"] := by decide +kernel
  rw [hL] at h1 h2
  simp only [birdOffers, written, List.map_cons, List.map_nil, Bool.not_false, Bool.not_true, List.filter_cons, List.filter_nil,
    Bool.false_eq_true, if_false, if_true, List.mem_cons, List.not_mem_nil, or_false] at hx
  subst hx
  have hv : v = "bird" := by
    rcases hu with ⟨a, ha, hv⟩ | ⟨a, ha, hv⟩
    · simp at ha
      subst ha
      simpa using hv
    · simp at ha
  subst hv
  simp at h2

end Verif.Detection
