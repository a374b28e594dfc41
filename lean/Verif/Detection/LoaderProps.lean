import Verif.Detection.Loader
import Verif.Detection.CmProps
import Verif.Detection.IouProps
import Verif.Classification.LoaderLemmas
import Verif.Cache.WriterProps

/-! # C34: the detection loader -/

namespace Verif.Detection

open Verif.Classification (addLabel addLabel_spec idxOf_prefix)

/-! ## Specification -/

/-- A history: detections with their IoU matrices, in the order in which they were added. -/
abbrev History := List (Det × (Nat → Nat → Rat))

/-- Ground truths of the detections before number `k`. -/
def gtOffset (H : History) (k : Nat) : Nat := ((H.take k).map (fun x => x.1.gts.length)).sum

/-- Predictions of the detections before number `k`. -/
def pdOffset (H : History) (k : Nat) : Nat := ((H.take k).map (fun x => x.1.pds.length)).sum

/-- Ground truth `g` overlaps no prediction. -/
def GtAlone (d : Det) (iou : Nat → Nat → Rat) (g : Nat) : Prop := ∀ p < d.pds.length, iou p g < EPSILON

/-- Prediction `p` overlaps no ground truth. -/
def PdAlone (d : Det) (iou : Nat → Nat → Rat) (p : Nat) : Prop := ∀ g < d.gts.length, iou p g < EPSILON

/-- The rows that detection number `k` should give, with label ids from the table `L`: one for each ground
truth without overlap, one for each label of each prediction without overlap, one for each overlapping
pair and each of their labels. -/
def IsRow (L : List String) (d : Det) (iou : Nat → Nat → Rat) (k g0 p0 : Nat) (r : FRow) : Prop :=
  (∃ g a, d.gts[g]? = some a ∧ GtAlone d iou g ∧
    r = gtRow d k a ((g0 + g : Nat) : Int) (L.idxOf (a.labels.headD "")) (a.labels.headD "")) ∨
  (∃ p a label score, d.pds[p]? = some a ∧ (label, score) ∈ a.labels.zip a.scores ∧ PdAlone d iou p ∧
    r = pdRow d k a ((p0 + p : Nat) : Int) (L.idxOf label) label score) ∨
  (∃ g ga p pa glabel label score, d.gts[g]? = some ga ∧ d.pds[p]? = some pa ∧ EPSILON ≤ iou p g ∧
    glabel ∈ ga.labels ∧ (label, score) ∈ pa.labels.zip pa.scores ∧
    r = pairRow d k ga pa ((g0 + g : Nat) : Int) ((p0 + p : Nat) : Int) (L.idxOf glabel) (L.idxOf label) glabel label (iou p g) score)

/-! ## Lemmas -/

/-- Index of an optional label. -/
def idOf (L : List String) : Option String → Int
  | none => -1
  | some v => (L.idxOf v : Int)

/-- The labels that a step adds. -/
def Step.labels (s : Step) : List String := s.gl.toList ++ s.pl.toList

theorem addLabel?_spec (ls : List String) (o : Option String) (hnd : ls.Nodup) :
    (addLabel? ls o).1.Nodup ∧ ls <+: (addLabel? ls o).1 ∧ (∀ v ∈ o.toList, v ∈ (addLabel? ls o).1) ∧
    (∀ x ∈ (addLabel? ls o).1, x ∈ ls ∨ x ∈ o.toList) ∧
    ∀ L, (addLabel? ls o).1 <+: L → (addLabel? ls o).2 = idOf L o := by
  cases o with
  | none => exact ⟨hnd, List.prefix_rfl, by simp, fun x hx => Or.inl hx, fun L _ => rfl⟩
  | some v =>
    obtain ⟨a1, a2, a3, a4, a5⟩ := addLabel_spec ls v hnd
    refine ⟨a1, a2, by simpa [addLabel?] using a3, ?_, ?_⟩
    · intro x hx
      rcases a5 x hx with h | h
      · exact Or.inl h
      · right; simp [h]
    · intro L hL
      unfold addLabel? idOf
      dsimp only
      rw [a4, idxOf_prefix hL a3]
      rfl

theorem exec_spec (ss : List Step) (ls : List String) (hnd : ls.Nodup) :
    (exec ss ls).1.Nodup ∧ ls <+: (exec ss ls).1 ∧ (∀ s ∈ ss, ∀ v ∈ s.labels, v ∈ (exec ss ls).1) ∧
    (∀ x ∈ (exec ss ls).1, x ∈ ls ∨ ∃ s ∈ ss, x ∈ s.labels) ∧
    ∀ L, (exec ss ls).1 <+: L → (exec ss ls).2 = ss.flatMap (fun s => s.out (idOf L s.gl) (idOf L s.pl)) := by
  induction ss generalizing ls with
  | nil => exact ⟨hnd, List.prefix_rfl, by simp, fun x hx => Or.inl hx, fun L _ => rfl⟩
  | cons s ss ih =>
    obtain ⟨a1, a2, a3, a4, a5⟩ := addLabel?_spec ls s.gl hnd
    obtain ⟨b1, b2, b3, b4, b5⟩ := addLabel?_spec (addLabel? ls s.gl).1 s.pl a1
    obtain ⟨c1, c2, c3, c4, c5⟩ := ih (addLabel? (addLabel? ls s.gl).1 s.pl).1 b1
    rw [exec]
    dsimp only
    refine ⟨c1, (a2.trans b2).trans c2, ?_, ?_, ?_⟩
    · intro s' hs' v hv
      rcases List.mem_cons.1 hs' with rfl | h
      · unfold Step.labels at hv
        rcases List.mem_append.1 hv with h | h
        · exact (b2.trans c2).subset (a3 v h)
        · exact c2.subset (b3 v h)
      · exact c3 s' h v hv
    · intro x hx
      rcases c4 x hx with h | ⟨s', hs', h⟩
      · rcases b4 x h with h | h
        · rcases a4 x h with h | h
          · exact Or.inl h
          · exact Or.inr ⟨s, by simp, by simp [Step.labels, h]⟩
        · exact Or.inr ⟨s, by simp, by simp [Step.labels, h]⟩
      · exact Or.inr ⟨s', by simp [hs'], h⟩
    · intro L hL
      rw [List.flatMap_cons, c5 L hL, a5 L ((b2.trans c2).trans hL), b5 L (c2.trans hL)]

theorem gtAlone_iff (d : Det) (iou : Nat → Nat → Rat) (g : Nat) : gtAlone d iou g = true ↔ GtAlone d iou g := by
  unfold gtAlone GtAlone
  rw [List.all_eq_true]
  simp

theorem pdAlone_iff (d : Det) (iou : Nat → Nat → Rat) (p : Nat) : pdAlone d iou p = true ↔ PdAlone d iou p := by
  unfold pdAlone PdAlone
  rw [List.all_eq_true]
  simp

/-- The rows of a detection under a label table. -/
def rowsOf (L : List String) (d : Det) (iou : Nat → Nat → Rat) (k g0 p0 : Nat) : List FRow :=
  (detSteps d iou k g0 p0).flatMap (fun s => s.out (idOf L s.gl) (idOf L s.pl))

theorem mem_pdSteps {L : List String} {d : Det} {k : Int} {p0 : Nat} {x : Ann × Nat} {r : FRow} :
    r ∈ (pdSteps d k p0 x).flatMap (fun s => s.out (idOf L s.gl) (idOf L s.pl)) ↔
      ∃ label score, (label, score) ∈ x.1.labels.zip x.1.scores ∧ r = pdRow d k x.1 ((p0 + x.2 : Nat) : Int) (L.idxOf label) label score := by
  unfold pdSteps
  rw [List.flatMap_map, List.mem_flatMap]
  constructor
  · rintro ⟨⟨l, s⟩, h, hr⟩
    dsimp only at hr
    rw [List.mem_singleton] at hr
    exact ⟨l, s, h, hr⟩
  · rintro ⟨l, s, h, hr⟩
    refine ⟨(l, s), h, ?_⟩
    dsimp only
    rw [List.mem_singleton]
    exact hr

theorem mem_zipIdx' {α : Type} {l : List α} {a : α} {i : Nat} : (a, i) ∈ l.zipIdx ↔ l[i]? = some a := by
  rw [List.mem_zipIdx_iff_getElem?]

/-- **Lemma for C34.** The rows that are written for a detection are the intended ones. -/
theorem mem_rowsOf (L : List String) (d : Det) (iou : Nat → Nat → Rat) (k g0 p0 : Nat) (r : FRow) :
    r ∈ rowsOf L d iou k g0 p0 ↔ IsRow L d iou k g0 p0 r := by
  unfold rowsOf detSteps
  split
  · rename_i hne
    rw [List.flatMap_assoc, List.mem_flatMap]
    constructor
    · rintro ⟨⟨ga, g⟩, hg, hr⟩
      rw [mem_zipIdx'] at hg
      unfold gtSteps at hr
      dsimp only at hr
      rw [List.flatMap_cons, List.mem_append] at hr
      rcases hr with hr | hr
      · dsimp only at hr
        split at hr
        · rename_i h
          rw [List.mem_singleton] at hr
          exact Or.inl ⟨g, ga, hg, (gtAlone_iff d iou g).1 h, hr⟩
        · simp at hr
      · rw [List.flatMap_assoc, List.mem_flatMap] at hr
        obtain ⟨⟨pa, p⟩, hp, hr⟩ := hr
        rw [mem_zipIdx'] at hp
        rw [List.flatMap_append, List.mem_append] at hr
        rcases hr with hr | hr
        · dsimp only at hr
          split at hr
          · rename_i h
            obtain ⟨label, score, h1, h2⟩ := mem_pdSteps.1 hr
            exact Or.inr (Or.inl ⟨p, pa, label, score, hp, h1, (pdAlone_iff d iou p).1 h, h2⟩)
          · simp at hr
        · dsimp only at hr
          split at hr
          · rename_i h
            rw [List.flatMap_assoc, List.mem_flatMap] at hr
            obtain ⟨glabel, hgl, hr⟩ := hr
            rw [List.flatMap_map, List.mem_flatMap] at hr
            obtain ⟨⟨label, score⟩, hz, hr⟩ := hr
            dsimp only at hr
            rw [List.mem_singleton] at hr
            exact Or.inr (Or.inr ⟨g, ga, p, pa, glabel, label, score, hg, hp, h, hgl, hz, hr⟩)
          · simp at hr
    · rintro (⟨g, ga, hg, h, hr⟩ | ⟨p, pa, label, score, hp, hz, h, hr⟩ | ⟨g, ga, p, pa, glabel, label, score, hg, hp, h, hgl, hz, hr⟩)
      · refine ⟨(ga, g), mem_zipIdx'.2 hg, ?_⟩
        unfold gtSteps
        rw [List.flatMap_cons, List.mem_append]
        left
        dsimp only
        rw [if_pos ((gtAlone_iff d iou g).2 h), List.mem_singleton]
        exact hr
      · obtain ⟨ga, hg⟩ : ∃ ga, d.gts[0]? = some ga := ⟨d.gts[0], List.getElem?_eq_getElem (by omega)⟩
        refine ⟨(ga, 0), mem_zipIdx'.2 hg, ?_⟩
        unfold gtSteps
        rw [List.flatMap_cons, List.mem_append]
        right
        rw [List.flatMap_assoc, List.mem_flatMap]
        refine ⟨(pa, p), mem_zipIdx'.2 hp, ?_⟩
        rw [List.flatMap_append, List.mem_append]
        left
        dsimp only
        rw [if_pos ((pdAlone_iff d iou p).2 h)]
        exact mem_pdSteps.2 ⟨label, score, hz, hr⟩
      · refine ⟨(ga, g), mem_zipIdx'.2 hg, ?_⟩
        unfold gtSteps
        rw [List.flatMap_cons, List.mem_append]
        right
        rw [List.flatMap_assoc, List.mem_flatMap]
        refine ⟨(pa, p), mem_zipIdx'.2 hp, ?_⟩
        rw [List.flatMap_append, List.mem_append]
        right
        dsimp only
        rw [if_pos h, List.flatMap_assoc, List.mem_flatMap]
        refine ⟨glabel, hgl, ?_⟩
        rw [List.flatMap_map, List.mem_flatMap]
        refine ⟨(label, score), hz, ?_⟩
        dsimp only
        rw [List.mem_singleton]
        exact hr
  · rename_i hne
    have h0 : d.gts = [] := by
      rw [not_not] at hne
      exact List.length_eq_zero_iff.1 hne
    rw [List.flatMap_assoc, List.mem_flatMap]
    constructor
    · rintro ⟨⟨pa, p⟩, hp, hr⟩
      rw [mem_zipIdx'] at hp
      obtain ⟨label, score, h1, h2⟩ := mem_pdSteps.1 hr
      exact Or.inr (Or.inl ⟨p, pa, label, score, hp, h1, by intro g hg; rw [h0] at hg; simp at hg, h2⟩)
    · rintro (⟨g, ga, hg, _⟩ | ⟨p, pa, label, score, hp, hz, h, hr⟩ | ⟨g, ga, _, _, _, _, _, hg, _⟩)
      · rw [h0] at hg; simp at hg
      · exact ⟨(pa, p), mem_zipIdx'.2 hp, mem_pdSteps.2 ⟨label, score, hz, hr⟩⟩
      · rw [h0] at hg; simp at hg

/-- The labels that a detection uses. -/
def UsesLabel (d : Det) (v : String) : Prop :=
  (∃ a ∈ d.gts, v ∈ a.labels) ∨ ∃ a ∈ d.pds, v ∈ a.labels

/-- The invariant of the loader. -/
structure LInv (s : Loader) (H : History) : Prop where
  nodup : s.labels.Nodup
  datums : s.datums = H.length
  gts : s.gts = gtOffset H H.length
  pds : s.pds = pdOffset H H.length
  rows : ∀ L, s.labels <+: L → s.rows = H.zipIdx.map (fun x => rowsOf L x.1.1 x.1.2 x.2 (gtOffset H x.2) (pdOffset H x.2))

theorem linv_init : LInv Loader.init [] :=
  ⟨by simp [Loader.init], rfl, rfl, rfl, by simp [Loader.init]⟩

theorem offset_append (H : History) (x : Det × (Nat → Nat → Rat)) (k : Nat) (h : k ≤ H.length) :
    gtOffset (H ++ [x]) k = gtOffset H k ∧ pdOffset (H ++ [x]) k = pdOffset H k := by
  unfold gtOffset pdOffset
  rw [List.take_append_of_le_length h]
  exact ⟨rfl, rfl⟩

theorem linv_addOne {s : Loader} {H : History} (i : LInv s H) (x : Det × (Nat → Nat → Rat)) :
    LInv (s.addOne x) (H ++ [x]) := by
  obtain ⟨c1, c2, _, _, c5⟩ := exec_spec (detSteps x.1 x.2 s.datums s.gts s.pds) s.labels i.nodup
  unfold Loader.addOne
  refine ⟨c1, by simp [i.datums], ?_, ?_, ?_⟩
  · dsimp only
    rw [i.gts]
    simp [gtOffset]
  · dsimp only
    rw [i.pds]
    simp [pdOffset]
  · intro L hL
    dsimp only at hL ⊢
    rw [i.rows L (c2.trans hL), c5 L hL, List.zipIdx_append, List.map_append]
    congr 1
    · apply List.map_congr_left
      rintro ⟨y, k⟩ hk
      rw [mem_zipIdx'] at hk
      have hk' : k < H.length := (List.getElem?_eq_some_iff.1 hk).1
      dsimp only
      rw [(offset_append H x k hk'.le).1, (offset_append H x k hk'.le).2]
    · simp only [Nat.zero_add, List.zipIdx_singleton, List.map_cons, List.map_nil]
      rw [(offset_append H x H.length le_rfl).1, (offset_append H x H.length le_rfl).2, ← i.gts, ← i.pds, ← i.datums]
      rfl

theorem linv_addData {s : Loader} {H : History} (i : LInv s H) (l : History) : LInv (s.addData l) (H ++ l) := by
  unfold Loader.addData
  induction l generalizing s H with
  | nil => simpa using i
  | cons x l ih =>
    rw [List.foldl_cons]
    have := ih (linv_addOne i x)
    rw [List.append_assoc] at this
    exact this

theorem linv_addAll (calls : List History) : LInv (Loader.init.addAll calls) calls.flatten := by
  have : ∀ {s H}, LInv s H → LInv (s.addAll calls) (H ++ calls.flatten) := by
    unfold Loader.addAll
    induction calls with
    | nil => intro s H i; simpa using i
    | cons c cs ih =>
      intro s H i
      rw [List.foldl_cons, List.flatten_cons, ← List.append_assoc]
      exact ih (linv_addData i c)
  exact this linv_init

/-! ## Theorems -/

/-- **C34 (rows).** After any sequence of `add_*` calls there is one payload per detection, and it contains
exactly the intended rows; labels have distinct ids, which are positions in the label table. -/
theorem C34_rows (calls : List History) :
    (Loader.init.addAll calls).labels.Nodup ∧
    (Loader.init.addAll calls).rows.length = calls.flatten.length ∧
    ∀ k : Nat, ∀ x, calls.flatten[k]? = some x → ∃ payload, (Loader.init.addAll calls).rows[k]? = some payload ∧
      ∀ r, r ∈ payload ↔ IsRow (Loader.init.addAll calls).labels x.1 x.2 k (gtOffset calls.flatten k) (pdOffset calls.flatten k) r := by
  have i := linv_addAll calls
  have hr := i.rows _ List.prefix_rfl
  refine ⟨i.nodup, by rw [hr]; simp, ?_⟩
  intro k x hx
  rw [hr]
  refine ⟨rowsOf (Loader.init.addAll calls).labels x.1 x.2 k (gtOffset calls.flatten k) (pdOffset calls.flatten k), ?_, ?_⟩
  · rw [List.getElem?_map, List.getElem?_zipIdx, hx]
    simp
  · intro r
    exact mem_rowsOf _ _ _ _ _ _ r

/-- **C34 (no ground truth is lost).** -/
theorem C34_groundtruths (L : List String) (d : Det) (iou : Nat → Nat → Rat) (k g0 p0 : Nat) (hd : d.valid = true)
    (hpd : ∀ a ∈ d.pds, a.labels ≠ []) {g : Nat} {a : Ann} (hg : d.gts[g]? = some a) (ha : a.labels ≠ []) :
    ∃ r, IsRow L d iou k g0 p0 r ∧ r.row.datum = k ∧ r.row.gt = ((g0 + g : Nat) : Int) ∧ r.row.gl = L.idxOf (a.labels.headD "") ∧
      r.gtUid = some a.uid ∧ r.gtLabel = some (a.labels.headD "") := by
  by_cases h : GtAlone d iou g
  · exact ⟨_, Or.inl ⟨g, a, hg, h, rfl⟩, rfl, rfl, rfl, rfl, rfl⟩
  · have : ∃ p, p < d.pds.length ∧ EPSILON ≤ iou p g := by
      by_contra hcon
      apply h
      intro p hp
      by_contra hlt
      exact hcon ⟨p, hp, not_lt.1 hlt⟩
    obtain ⟨p, hp, hle⟩ := this
    have hpa : d.pds[p]? = some d.pds[p] := List.getElem?_eq_getElem hp
    have hlab : d.pds[p].labels ≠ [] := hpd _ (List.getElem_mem hp)
    have hlen : d.pds[p].scores.length = d.pds[p].labels.length := by
      unfold Det.valid at hd
      rw [List.all_eq_true] at hd
      simpa using hd _ (List.getElem_mem hp)
    have hz : d.pds[p].labels.zip d.pds[p].scores ≠ [] := by
      rw [← List.length_pos_iff, List.length_zip, hlen]
      have := List.length_pos_iff.2 hlab
      omega
    obtain ⟨⟨label, score⟩, hls⟩ := List.exists_mem_of_ne_nil _ hz
    have hhead : a.labels.headD "" ∈ a.labels := by
      cases hl : a.labels with
      | nil => exact absurd hl ha
      | cons x xs => simp
    exact ⟨_, Or.inr (Or.inr ⟨g, a, p, _, _, label, score, hg, hpa, hle, hhead, hls, rfl⟩), rfl, rfl, rfl, rfl, rfl⟩

/-- **C34 (no prediction is lost).** -/
theorem C34_predictions (L : List String) (d : Det) (iou : Nat → Nat → Rat) (k g0 p0 : Nat)
    (hgt : ∀ a ∈ d.gts, a.labels ≠ []) {p : Nat} {a : Ann} (hp : d.pds[p]? = some a) {label : String} {score : Rat}
    (hz : (label, score) ∈ a.labels.zip a.scores) :
    ∃ r, IsRow L d iou k g0 p0 r ∧ r.row.datum = k ∧ r.row.pd = ((p0 + p : Nat) : Int) ∧ r.row.pl = L.idxOf label ∧
      r.row.score = score ∧ r.pdUid = some a.uid ∧ r.pdLabel = some label := by
  by_cases h : PdAlone d iou p
  · exact ⟨_, Or.inr (Or.inl ⟨p, a, label, score, hp, hz, h, rfl⟩), rfl, rfl, rfl, rfl, rfl, rfl⟩
  · have : ∃ g, g < d.gts.length ∧ EPSILON ≤ iou p g := by
      by_contra hcon
      apply h
      intro g hg
      by_contra hlt
      exact hcon ⟨g, hg, not_lt.1 hlt⟩
    obtain ⟨g, hg, hle⟩ := this
    have hga : d.gts[g]? = some d.gts[g] := List.getElem?_eq_getElem hg
    obtain ⟨glabel, hgl⟩ := List.exists_mem_of_ne_nil _ (hgt _ (List.getElem_mem hg))
    exact ⟨_, Or.inr (Or.inr ⟨g, _, p, a, glabel, label, score, hga, hp, hle, hgl, hz, rfl⟩), rfl, rfl, rfl, rfl, rfl, rfl⟩

/-- **C34 (pairs).** A row that joins a ground truth and a prediction exists exactly when they overlap, and
it carries their IoU. -/
theorem C34_pairs (L : List String) (d : Det) (iou : Nat → Nat → Rat) (k g0 p0 : Nat) (hd : d.valid = true)
    (hpd : ∀ a ∈ d.pds, a.labels ≠ []) (hgt : ∀ a ∈ d.gts, a.labels ≠ []) {g p : Nat} (hg : g < d.gts.length) (hp : p < d.pds.length) :
    ((∃ r, IsRow L d iou k g0 p0 r ∧ r.row.gt = ((g0 + g : Nat) : Int) ∧ r.row.pd = ((p0 + p : Nat) : Int)) ↔ EPSILON ≤ iou p g) ∧
    ∀ r, IsRow L d iou k g0 p0 r → r.row.gt = ((g0 + g : Nat) : Int) → r.row.pd = ((p0 + p : Nat) : Int) → r.row.iou = iou p g := by
  have key : ∀ r, IsRow L d iou k g0 p0 r → r.row.gt = ((g0 + g : Nat) : Int) → r.row.pd = ((p0 + p : Nat) : Int) →
      EPSILON ≤ iou p g ∧ r.row.iou = iou p g := by
    rintro r (⟨g', a, _, _, rfl⟩ | ⟨p', a, label, score, _, _, _, rfl⟩ | ⟨g', ga, p', pa, glabel, label, score, _, _, h, _, _, rfl⟩) h1 h2
    · simp [gtRow] at h2; omega
    · simp [pdRow] at h1; omega
    · simp only [pairRow, Nat.cast_inj] at h1 h2
      have e1 : g' = g := by omega
      have e2 : p' = p := by omega
      subst e1; subst e2
      exact ⟨h, rfl⟩
  refine ⟨⟨fun ⟨r, hr, h1, h2⟩ => (key r hr h1 h2).1, ?_⟩, fun r hr h1 h2 => (key r hr h1 h2).2⟩
  intro h
  obtain ⟨glabel, hgl⟩ := List.exists_mem_of_ne_nil _ (hgt _ (List.getElem_mem hg))
  have hlen : d.pds[p].scores.length = d.pds[p].labels.length := by
    unfold Det.valid at hd
    rw [List.all_eq_true] at hd
    simpa using hd _ (List.getElem_mem hp)
  have hz : d.pds[p].labels.zip d.pds[p].scores ≠ [] := by
    rw [← List.length_pos_iff, List.length_zip, hlen]
    have := List.length_pos_iff.2 (hpd _ (List.getElem_mem hp))
    omega
  obtain ⟨⟨label, score⟩, hls⟩ := List.exists_mem_of_ne_nil _ hz
  exact ⟨_, Or.inr (Or.inr ⟨g, _, p, _, glabel, label, score, List.getElem?_eq_getElem hg, List.getElem?_eq_getElem hp, h, hgl, hls, rfl⟩),
    rfl, rfl⟩

theorem sum_take_inj (l : List Nat) {i j a b : Nat} (ha : ∃ h : i < l.length, a < l[i]) (hb : ∃ h : j < l.length, b < l[j])
    (h : (l.take i).sum + a = (l.take j).sum + b) : i = j ∧ a = b := by
  have key : ∀ {i j a b : Nat}, i < j → (∃ h : i < l.length, a < l[i]) → (l.take i).sum + a < (l.take j).sum + b := by
    intro i j a b hij ⟨hi, ha⟩
    have h1 : (l.take (i + 1)).sum = (l.take i).sum + l[i] := by
      rw [List.take_add_one, List.getElem?_eq_getElem hi, List.sum_append]
      simp
    have h2 : (l.take (i + 1)).sum ≤ (l.take j).sum := by
      have : l.take j = l.take (i + 1) ++ (l.take j).drop (i + 1) := by
        conv_lhs => rw [← List.take_append_drop (i + 1) (l.take j)]
        rw [List.take_take, Nat.min_eq_left (by omega)]
      rw [this, List.sum_append]
      omega
    omega
  rcases Nat.lt_trichotomy i j with hlt | heq | hgt
  · have := key (b := b) hlt ha; omega
  · subst heq; exact ⟨rfl, by omega⟩
  · have := key (b := a) hgt hb; omega

/-- **C34 (ids).** The id of a ground truth or prediction determines its detection and its position. -/
theorem C34_ids (H : History) {k k' g g' : Nat} {x x' : Det × (Nat → Nat → Rat)} (hk : H[k]? = some x) (hk' : H[k']? = some x') :
    (g < x.1.gts.length → g' < x'.1.gts.length → gtOffset H k + g = gtOffset H k' + g' → k = k' ∧ g = g') ∧
    (g < x.1.pds.length → g' < x'.1.pds.length → pdOffset H k + g = pdOffset H k' + g' → k = k' ∧ g = g') := by
  obtain ⟨h1, rfl⟩ := List.getElem?_eq_some_iff.1 hk
  obtain ⟨h1', rfl⟩ := List.getElem?_eq_some_iff.1 hk'
  unfold gtOffset pdOffset
  constructor
  · intro hg hg' he
    rw [List.map_take, List.map_take] at he
    exact sum_take_inj (H.map (fun x => x.1.gts.length)) ⟨by simpa using h1, by simpa using hg⟩ ⟨by simpa using h1', by simpa using hg'⟩ he
  · intro hg hg' he
    rw [List.map_take, List.map_take] at he
    exact sum_take_inj (H.map (fun x => x.1.pds.length)) ⟨by simpa using h1, by simpa using hg⟩ ⟨by simpa using h1', by simpa using hg'⟩ he

/-- Two detections; the second has an overlapping pair, a free ground truth and a free prediction. -/
def sampleHistory : History :=
  [(⟨"d0", [], [⟨"p", ["a", "b"], [1 / 2, 1 / 3], ""⟩], ""⟩, fun _ _ => 0),
   (⟨"d1", [⟨"g0", ["a"], [], ""⟩, ⟨"g1", ["c"], [], ""⟩], [⟨"p0", ["a"], [9 / 10], ""⟩, ⟨"p1", ["b"], [8 / 10], ""⟩], ""⟩,
     fun p g => if p = 0 ∧ g = 0 then 7 / 10 else 0)]

example : (sampleHistory.map Prod.fst).all Det.valid = true ∧
    ((Loader.init.addAll [sampleHistory]).rows.map (fun p => p.map FRow.row)) =
      [[⟨0, -1, 0, -1, 0, 0, 1 / 2⟩, ⟨0, -1, 0, -1, 1, 0, 1 / 3⟩],
       [⟨1, 0, 1, 0, 0, 7 / 10, 9 / 10⟩, ⟨1, -1, 2, -1, 1, 0, 8 / 10⟩, ⟨1, 1, -1, 2, -1, 0, -1⟩, ⟨1, -1, 2, -1, 1, 0, 8 / 10⟩]] := by
  decide +kernel

end Verif.Detection
