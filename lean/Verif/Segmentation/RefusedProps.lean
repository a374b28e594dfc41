import Verif.Segmentation.OrderProps

/-!
# C99 (segmentation): segmentations that the cache refuses
-/

namespace Verif.Segmentation

open Verif.Classification (addLabel_spec idxOf_prefix)
open Verif.Shared

/-- `add_data([s])` (`semantic_segmentation/loader.py` 35-205) when the writer may refuse the rows: `fits` says whether
`RecordBatch.from_pylist(rows, schema=..)` succeeds (`cache/ephemeral.py` 190, `cache/persistent.py` 393). A refusal comes after the
labels have been added and before the rows are written and the datum is counted. The exception itself is not part of the result. -/
def Loader.offer (l : Loader) (s : Seg) (fits : Bool) : Loader :=
  let g := addLabels l.labels (s.gts.map Item.label)
  let p := addLabels g.1 (s.pds.map Item.label)
  let c := computeIntermediates s.size (combined s.size s.gts) (combined s.size s.pds) g.2 p.2
  if fits then ⟨p.1, l.datums + 1, l.rows ++ [segRows s l.datums p.1 c]⟩ else ⟨p.1, l.datums, l.rows⟩

/-- A caller who adds segmentations one by one and ignores the exceptions. -/
def Loader.offerAll (l : Loader) (offers : List (Seg × Bool)) : Loader := offers.foldl (fun l x => l.offer x.1 x.2) l

/-- The segmentations that were accepted. -/
def written (offers : List (Seg × Bool)) : List Seg := (offers.filter (fun x => x.2)).map Prod.fst

/-- The label occurs in the segmentation. -/
def Carries (s : Seg) (v : String) : Prop := ∃ x ∈ s.gts ++ s.pds, x.label = v

/-- A label that was offered but never accepted. -/
def Orphan (offers : List (Seg × Bool)) (v : String) : Prop :=
  (∃ s ∈ offers.map Prod.fst, Carries s v) ∧ ∀ s ∈ written offers, ¬ Carries s v

/-- What a loader holds after some offers; `V` is the table of labels at the last accepted segmentation. -/
structure Held (l : Loader) (offers : List (Seg × Bool)) (V : List String) : Prop where
  nodup : l.labels.Nodup
  datums : l.datums = (written offers).length
  len : l.rows.length = (written offers).length
  pre : V <+: l.labels
  rows : ∀ k s, (written offers)[k]? = some s → ∃ L, L <+: V ∧ (∀ x ∈ s.gts ++ s.pds, x.label ∈ L) ∧
    l.rows[k]? = some (segRows s k L (imgMatrix V s))
  seen : V ≠ [] → ∃ (k : Nat) (s : Seg), (written offers)[k]? = some s ∧ l.rows[k]? = some (segRows s k V (imgMatrix V s))
  labels : ∀ v, v ∈ l.labels ↔ ∃ s ∈ offers.map Prod.fst, Carries s v
  last : (offers.getLast?).map Prod.snd = some true → V = l.labels

theorem held_init : Held Loader.init [] [] :=
  ⟨by simp [Loader.init], rfl, rfl, List.nil_prefix, by simp [written], by simp, by simp [Loader.init], by simp⟩

theorem Held.offer {l : Loader} {offers : List (Seg × Bool)} {V : List String} (h : Held l offers V) (s : Seg) (fits : Bool) :
    ∃ V', Held (l.offer s fits) (offers ++ [(s, fits)]) V' := by
  obtain ⟨a1, a2, a3, a4, a5⟩ := addLabels_spec (s.gts.map Item.label) l.labels h.nodup
  obtain ⟨b1, b2, b3, b4, b5⟩ := addLabels_spec (s.pds.map Item.label) _ a1
  have hlab : ∀ x ∈ s.gts ++ s.pds, x.label ∈ (addLabels (addLabels l.labels (s.gts.map Item.label)).1 (s.pds.map Item.label)).1 := by
    intro x hx
    rcases List.mem_append.1 hx with hx | hx
    · exact b2.subset (a3 _ (List.mem_map_of_mem hx))
    · exact b3 _ (List.mem_map_of_mem hx)
  have hm : computeIntermediates s.size (combined s.size s.gts) (combined s.size s.pds)
      (addLabels l.labels (s.gts.map Item.label)).2
      (addLabels (addLabels l.labels (s.gts.map Item.label)).1 (s.pds.map Item.label)).2
      = imgMatrix (addLabels (addLabels l.labels (s.gts.map Item.label)).1 (s.pds.map Item.label)).1 s := by
    unfold imgMatrix
    rw [b5, a5, List.map_map, List.map_map]
    congr 1
    apply List.map_congr_left
    intro x hx
    exact (idxOf_prefix b2 (a3 _ (List.mem_map_of_mem hx))).symm
  have hlabels : ∀ v, v ∈ (addLabels (addLabels l.labels (s.gts.map Item.label)).1 (s.pds.map Item.label)).1 ↔
      ∃ t ∈ (offers ++ [(s, fits)]).map Prod.fst, Carries t v := by
    intro v
    constructor
    · intro hv
      rcases b4 v hv with h' | h'
      · rcases a4 v h' with h'' | h''
        · obtain ⟨t, ht, e⟩ := (h.labels v).1 h''
          exact ⟨t, by rw [List.map_append]; exact List.mem_append_left _ ht, e⟩
        · obtain ⟨x, hx, e⟩ := List.mem_map.1 h''
          exact ⟨s, by simp, x, by simp [hx], e⟩
      · obtain ⟨x, hx, e⟩ := List.mem_map.1 h'
        exact ⟨s, by simp, x, by simp [hx], e⟩
    · rintro ⟨t, ht, x, hx, rfl⟩
      rw [List.map_append] at ht
      rcases List.mem_append.1 ht with ht | ht
      · exact (a2.trans b2).subset ((h.labels _).2 ⟨t, ht, x, hx, rfl⟩)
      · have : t = s := by simpa using ht
        subst this
        exact hlab x hx
  unfold Loader.offer
  dsimp only
  rw [hm]
  set P := (addLabels (addLabels l.labels (s.gts.map Item.label)).1 (s.pds.map Item.label)).1 with hP
  have hVP : V <+: P := h.pre.trans (a2.trans b2)
  cases fits with
  | false =>
    have hw : written (offers ++ [(s, false)]) = written offers := by simp [written]
    refine ⟨V, ?_⟩
    rw [if_neg (by simp)]
    refine ⟨b1, by rw [hw]; exact h.datums, by rw [hw]; exact h.len, hVP, by rw [hw]; exact h.rows, by rw [hw]; exact h.seen, hlabels, ?_⟩
    intro e
    simp at e
  | true =>
    have hw : written (offers ++ [(s, true)]) = written offers ++ [s] := by simp [written]
    refine ⟨P, ?_⟩
    rw [if_pos rfl]
    have hnew : (written offers ++ [s])[(written offers).length]? = some s ∧
        (l.rows ++ [segRows s l.datums P (imgMatrix P s)])[(written offers).length]? = some (segRows s (written offers).length P (imgMatrix P s)) := by
      refine ⟨by simp, ?_⟩
      rw [← h.len, List.getElem?_append_right (by omega), Nat.sub_self, h.datums, h.len]
      rfl
    refine ⟨b1, by rw [hw]; simp [h.datums], by rw [hw]; simp [h.len], List.prefix_rfl, ?_, ?_, hlabels, fun _ => rfl⟩
    · rw [hw]
      intro k s' hk
      dsimp only
      by_cases hlt : k < (written offers).length
      · rw [List.getElem?_append_left hlt] at hk
        obtain ⟨L, h1, h2, h3⟩ := h.rows k s' hk
        refine ⟨L, h1.trans hVP, h2, ?_⟩
        rw [List.getElem?_append_left (by rw [h.len]; exact hlt), h3]
        have := imgMatrix_prefix hVP (s := s') (fun x hx => h1.subset (h2 x hx))
        rw [this]
      · have hk' : k = (written offers).length := by
          have := (List.getElem?_eq_some_iff.1 hk).1
          rw [List.length_append, List.length_singleton] at this
          omega
        subst hk'
        rw [hnew.1] at hk
        cases hk
        exact ⟨P, List.prefix_rfl, hlab, hnew.2⟩
    · intro _
      rw [hw]
      exact ⟨_, s, hnew⟩

theorem held_reach (offers : List (Seg × Bool)) : ∃ V, Held (Loader.init.offerAll offers) offers V := by
  suffices H : ∀ (new : List (Seg × Bool)) l offers V, Held l offers V → ∃ V', Held (l.offerAll new) (offers ++ new) V' by
    simpa using H offers _ _ _ held_init
  intro new
  induction new with
  | nil => intro l offers V h; exact ⟨V, by simpa [Loader.offerAll] using h⟩
  | cons x new ih =>
    intro l offers V h
    obtain ⟨V', h'⟩ := h.offer x.1 x.2
    obtain ⟨V'', h''⟩ := ih _ _ _ h'
    refine ⟨V'', ?_⟩
    simpa [Loader.offerAll] using h''

/-! ## Reading the rows back -/

theorem Held.sum {l : Loader} {offers : List (Seg × Bool)} {V : List String} (h : Held l offers V) (i j : Nat) :
    rowSum l.rows.flatten i j = ((written offers).map (fun s => imgMatrix V s i j)).sum := by
  rw [rowSum_flatten]
  congr 1
  apply List.ext_getElem (by rw [List.length_map, List.length_map, h.len])
  intro k h1 h2
  rw [List.length_map] at h1 h2
  rw [List.getElem_map, List.getElem_map]
  obtain ⟨L, hp, hL, hr⟩ := h.rows k _ (List.getElem?_eq_getElem h2)
  rw [List.getElem?_eq_getElem h1] at hr
  rw [Option.some.inj hr, segRows_sum]
  split
  · rfl
  · rename_i hc
    exact (imgMatrix_out hp hL hc).symm

theorem Held.used {l : Loader} {offers : List (Seg × Bool)} {V : List String} (h : Held l offers V) {s : Seg} (hs : s ∈ written offers)
    {x : Item} (hx : x ∈ s.gts ++ s.pds) : x.label ∈ V := by
  obtain ⟨k, hk⟩ := List.mem_iff_getElem?.1 hs
  obtain ⟨L, h1, h2, _⟩ := h.rows k s hk
  exact h1.subset (h2 x hx)

theorem Held.matrix {l : Loader} {offers : List (Seg × Bool)} {V : List String} (h : Held l offers V) (hok : ∀ s ∈ written offers, SegOk s)
    (hs : ((written offers).map Seg.size).sum < 2 ^ 64) {tables : List (List SRow)} (hp : tables.flatten.Perm l.rows.flatten)
    {a b : Option String} (ha : ∀ v ∈ a, v ∈ V) (hb : ∀ v ∈ b, v ∈ V) :
    confusionMatrix V.length none tables (scode V a) (scode V b) = ((written offers).map (fun s => pixelsOf s a b)).sum := by
  have hsz : ∀ s ∈ written offers, s.size < 2 ^ 64 := fun s hsm => lt_of_le_of_lt (le_sum_of_mem hsm) hs
  have e : (written offers).map (fun s => imgMatrix V s (scode V a) (scode V b)) = (written offers).map (fun s => pixelsOf s a b) := by
    apply List.map_congr_left
    intro s hsm
    exact imgMatrix_eq (hok s hsm) (hsz s hsm) (fun x hx => h.used hsm hx) ha hb
  have hr : rowSum tables.flatten (scode V a) (scode V b) = ((written offers).map (fun s => pixelsOf s a b)).sum := by
    rw [rowSum_perm hp, h.sum, e]
  have hle : ∀ (l : List Seg), (l.map (fun s => pixelsOf s a b)).sum ≤ (l.map Seg.size).sum := by
    intro l
    induction l with
    | nil => simp
    | cons s l ih =>
      rw [List.map_cons, List.map_cons, List.sum_cons, List.sum_cons]
      have : pixelsOf s a b ≤ s.size := by
        unfold pixelsOf
        exact le_trans List.countP_le_length (by simp)
      omega
  have hc : ∀ o : Option String, (∀ v ∈ o, v ∈ V) → scode V o ≤ V.length := by
    intro o ho
    cases o with
    | none => simp [scode]
    | some v =>
      have := List.idxOf_lt_length_of_mem (ho v (by simp))
      simp only [scode]; omega
  rw [confusion_eq (hc a ha) (hc b hb) (by rw [hr]; exact lt_of_le_of_lt (hle _) hs), hr]

theorem Held.extract {l : Loader} {offers : List (Seg × Bool)} {V : List String} (h : Held l offers V) {tables : List (List SRow)}
    (hp : tables.flatten.Perm l.rows.flatten) :
    let d := extractLabels (tables.map (fun t => t.map labelCols))
    (d.map Prod.fst).Nodup ∧ ∀ (i : Int) (s : String), d.lookup i = some s ↔ 0 ≤ i ∧ V[i.toNat]? = some s := by
  intro d
  have hflat : (tables.map (fun t => t.map labelCols)).flatten = tables.flatten.map labelCols := by
    rw [List.map_flatten]
  have hpre : ∀ {L : List String}, L <+: V → ∀ {i : Nat}, i < L.length → L[i]? = V[i]? := by
    intro L h i hi
    obtain ⟨t, ht⟩ := h
    rw [← ht, List.getElem?_append_left hi]
  have hmem : ∀ r ∈ tables.flatten, ∃ (k : Nat) (s : Seg) (L : List String), L <+: V ∧ r ∈ segRows s k L (imgMatrix V s) := by
    intro r hr
    obtain ⟨p, hpm, hrp⟩ := List.mem_flatten.1 (hp.mem_iff.1 hr)
    obtain ⟨k, hk, rfl⟩ := List.getElem_of_mem hpm
    have hk' : k < (written offers).length := by rw [← h.len]; exact hk
    obtain ⟨L, h1, _, h3⟩ := h.rows k _ (List.getElem?_eq_getElem hk')
    rw [List.getElem?_eq_getElem hk] at h3
    exact ⟨k, _, L, h1, Option.some.inj h3 ▸ hrp⟩
  obtain ⟨h1, h2⟩ := C50_extract (f := fun i => (V[i.toNat]?).getD "") (tables.map (fun t => t.map labelCols)) (by
    rw [hflat]
    intro x hx
    obtain ⟨r, hr, rfl⟩ := List.mem_map.1 hx
    obtain ⟨k, s, L, hL, hm⟩ := hmem r hr
    obtain ⟨c1, c2⟩ := segRows_cols hm
    simp only [labelCols]
    constructor
    · intro hne
      rcases c1 with e | ⟨i, e, hi, ht⟩
      · exact absurd e hne
      · rw [e, ht, Int.toNat_natCast, hpre hL hi]
    · intro hne
      rcases c2 with e | ⟨i, e, hi, ht⟩
      · exact absurd e hne
      · rw [e, ht, Int.toNat_natCast, hpre hL hi])
  refine ⟨h1, ?_⟩
  intro i s
  rw [h2, hflat]
  constructor
  · rintro ⟨⟨hne, x, hx, he⟩, rfl⟩
    obtain ⟨r, hr, rfl⟩ := List.mem_map.1 hx
    obtain ⟨k, s, L, hL, hm⟩ := hmem r hr
    obtain ⟨c1, c2⟩ := segRows_cols hm
    simp only [labelCols] at he
    have : ∃ n : Nat, i = (n : Int) ∧ n < L.length := by
      rcases he with rfl | rfl
      · rcases c1 with e | ⟨n, e, hn, _⟩
        · exact absurd e hne
        · exact ⟨n, e, hn⟩
      · rcases c2 with e | ⟨n, e, hn, _⟩
        · exact absurd e hne
        · exact ⟨n, e, hn⟩
    obtain ⟨n, rfl, hn⟩ := this
    refine ⟨Int.natCast_nonneg _, ?_⟩
    rw [Int.toNat_natCast, List.getElem?_eq_getElem (lt_of_lt_of_le hn hL.length_le)]
    rfl
  · rintro ⟨hi, hs⟩
    obtain ⟨n, rfl⟩ := Int.eq_ofNat_of_zero_le hi
    rw [Int.toNat_natCast] at hs
    obtain ⟨hn, hv⟩ := List.getElem?_eq_some_iff.1 hs
    obtain ⟨k, sg, hk, hr⟩ := h.seen (by intro e; rw [e] at hn; simp at hn)
    have hrow : gtRow sg k V (imgMatrix V sg) n ∈ tables.flatten := by
      rw [hp.mem_iff]
      apply List.mem_flatten_of_mem (List.mem_of_getElem? hr)
      unfold segRows
      rw [List.mem_append, List.mem_flatMap]
      exact Or.inl ⟨n, List.mem_range.2 hn, by simp⟩
    refine ⟨⟨by omega, _, List.mem_map_of_mem hrow, Or.inl rfl⟩, ?_⟩
    rw [Int.toNat_natCast, hs]
    rfl

/-! ## The report -/

theorem pixels_orphan {s : Seg} {v : String} (h : ¬ Carries s v) (x : Nat) : itemAt s.gts x ≠ some v ∧ itemAt s.pds x ≠ some v := by
  constructor <;>
  · intro e
    obtain ⟨it, hit, e⟩ := itemAt_mem e
    exact h ⟨it, by simp [hit], e⟩

theorem total_orphan {ss : List Seg} {v : String} (h : ∀ s ∈ ss, ¬ Carries s v) :
    (ss.map (fun s => pixelsOf s (some v) (some v))).sum = 0 ∧ (ss.map (fun s => gtPixelsOf s (some v))).sum = 0 ∧
      (ss.map (fun s => pdPixelsOf s (some v))).sum = 0 := by
  have z : ∀ f : Seg → Nat, (∀ s ∈ ss, f s = 0) → (ss.map f).sum = 0 := by
    intro f hf
    rw [List.sum_eq_zero]
    intro x hx
    obtain ⟨s, hs, rfl⟩ := List.mem_map.1 hx
    exact hf s hs
  refine ⟨z _ ?_, z _ ?_, z _ ?_⟩
  all_goals
    intro s hs
    have := pixels_orphan (h s hs)
    simp [pixelsOf, gtPixelsOf, pdPixelsOf, this]

/-- **C99 (segmentation).** Whatever was offered and refused: the report succeeds if the report over the accepted segmentations alone
does, the accuracy is the same, every precision, recall, F1, IoU and every cell of the confusion matrix of the accepted data is
reported unchanged. What the refused segmentations leave behind is a list `extra` of labels that no accepted segmentation has. Each
of them is reported with precision, recall, F1 and IoU 0, and the mean IoU is divided by the number of all these labels. If the last
segmentation was accepted, `extra` holds all labels that were only offered. -/
theorem C99_segmentation (offers : List (Seg × Bool)) (hok : ∀ s ∈ written offers, SegOk s)
    (hs : ((written offers).map Seg.size).sum < 2 ^ 64) {tables alone : List (List SRow)}
    (hp : tables.flatten.Perm (Loader.init.offerAll offers).rows.flatten)
    (ha : alone.flatten.Perm (Loader.init.addAll [written offers]).rows.flatten)
    (hne : ∃ s ∈ written offers, ∃ v, Carries s v) :
    ∃ R A, (Evaluator.mk tables (extractLabels (tables.map (fun t => t.map labelCols)))).report none = .ok R ∧
      (Evaluator.mk alone (extractLabels (alone.map (fun t => t.map labelCols)))).report none = .ok A ∧
      R.accuracy = A.accuracy ∧
      (∃ m a b m' a' b', R.confusionMatrix = [⟨"ConfusionMatrix", .matrix m a b, none⟩] ∧
        A.confusionMatrix = [⟨"ConfusionMatrix", .matrix m' a' b', none⟩] ∧
        (∀ g p x, cellOf m' g p = some x → cellOf m g p = some x) ∧ (∀ v x, a'.lookup v = some x → a.lookup v = some x) ∧
        ∀ v x, b'.lookup v = some x → b.lookup v = some x) ∧
      ∃ extra : List String, extra.Nodup ∧ (∀ v ∈ extra, Orphan offers v) ∧
        ((offers.getLast?).map Prod.snd = some true → ∀ v, Orphan offers v → v ∈ extra) ∧
        R.precision.Perm (A.precision ++ extra.map (fun v => ⟨"Precision", .number (some 0), some v⟩)) ∧
        R.recall.Perm (A.recall ++ extra.map (fun v => ⟨"Recall", .number (some 0), some v⟩)) ∧
        R.f1.Perm (A.f1 ++ extra.map (fun v => ⟨"F1", .number (some 0), some v⟩)) ∧
        R.iou.Perm (A.iou ++ extra.map (fun v => ⟨"IOU", .number (some 0), some v⟩)) ∧
        ∃ (sum : Rat) (n : Nat), n = A.iou.length ∧ A.meanIou = [⟨"mIOU", .number (some (sum / n)), none⟩] ∧
          R.meanIou = [⟨"mIOU", .number (some (sum / ((n + extra.length : Nat) : Rat))), none⟩] := by
  obtain ⟨V, h⟩ := held_reach offers
  have hVnd : V.Nodup := h.nodup.sublist h.pre.sublist
  have hloaded := loaded [written offers]
  rw [List.flatten_singleton] at hloaded
  set U := (Loader.init.addAll [written offers]).labels with hU
  have hUV : ∀ v ∈ U, v ∈ V := by
    intro v hv
    obtain ⟨s, hsm, x, hx, rfl⟩ := (hloaded.labels v).1 hv
    exact h.used hsm hx
  have hUc : ∀ v, v ∈ U ↔ ∃ s ∈ written offers, Carries s v := hloaded.labels
  obtain ⟨s0, hs0, v0, hv0⟩ := hne
  have hUne : U ≠ [] := List.ne_nil_of_mem ((hUc v0).2 ⟨s0, hs0, hv0⟩)
  have hVne : V ≠ [] := List.ne_nil_of_mem (hUV v0 ((hUc v0).2 ⟨s0, hs0, hv0⟩))
  obtain ⟨d1, d2⟩ := h.extract hp
  have hlen : (extractLabels (tables.map (fun t => t.map labelCols))).length = V.length := by
    have := numbered_length d1 d2
    simpa [numbered] using this
  have hnames : ((extractLabels (tables.map (fun t => t.map labelCols))).map Prod.snd).Perm V := by
    have := numbered_names d1 d2
    simpa [numbered, List.map_map, Function.comp_def] using this
  have hin : ∀ s ∈ written offers, ∀ x, (∀ v ∈ itemAt s.gts x, v ∈ V) ∧ (∀ v ∈ itemAt s.pds x, v ∈ V) := by
    intro s hsm x
    constructor <;>
    · intro v hv
      obtain ⟨it, hit, rfl⟩ := itemAt_mem hv
      exact h.used hsm (by simp [hit])
  obtain ⟨R, e1, a1, c1, m1, p1, r1, f1, i1⟩ := report_of_matrix hVnd hVne d1 d2 (written offers) hin hs
    (M := confusionMatrix (extractLabels (tables.map (fun t => t.map labelCols))).length none tables)
    (fun a b ha hb => by rw [hlen]; exact h.matrix hok hs hp ha hb)
  obtain ⟨n2, A, e2, a2, c2, m2, p2, r2, f2, i2⟩ := C65_report [written offers] (by rw [List.flatten_singleton]; exact hok)
    (by rw [List.flatten_singleton]; exact hs) ha hUne
  have htot : total [written offers] = fun f => ((written offers).map f).sum := by
    funext f
    simp [total]
  rw [htot] at a2 c2 m2 p2 r2 f2 i2
  set extra := V.filter (fun v => decide (v ∉ U)) with hextra
  have hperm : V.Perm (U ++ extra) := by
    refine (List.perm_ext_iff_of_nodup hVnd ?_).2 ?_
    · rw [List.nodup_append]
      refine ⟨hloaded.nodup, hVnd.filter _, ?_⟩
      intro a ha b hb e
      rw [hextra, List.mem_filter, decide_eq_true_eq] at hb
      exact hb.2 (e ▸ ha)
    · intro v
      rw [List.mem_append, hextra, List.mem_filter, decide_eq_true_eq]
      constructor
      · intro hv
        by_cases hu : v ∈ U
        · exact Or.inl hu
        · exact Or.inr ⟨hv, hu⟩
      · rintro (hv | hv)
        · exact hUV v hv
        · exact hv.1
  have hzero : ∀ v ∈ extra, ∀ s ∈ written offers, ¬ Carries s v := by
    intro v hv s hsm hc
    rw [hextra, List.mem_filter, decide_eq_true_eq] at hv
    exact hv.2 ((hUc v).2 ⟨s, hsm, hc⟩)
  have hlist : ∀ (f g : String → Metric), (∀ v ∈ extra, f v = g v) →
      ((extractLabels (tables.map (fun t => t.map labelCols))).map (fun x => f x.2)).Perm
      ((extractLabels (alone.map (fun t => t.map labelCols))).map (fun x => f x.2) ++ extra.map g) := by
    intro f g hfg
    have e1 : (extractLabels (tables.map (fun t => t.map labelCols))).map (fun x => f x.2)
        = ((extractLabels (tables.map (fun t => t.map labelCols))).map Prod.snd).map f := by rw [List.map_map]; rfl
    have e2 : (extractLabels (alone.map (fun t => t.map labelCols))).map (fun x => f x.2)
        = ((extractLabels (alone.map (fun t => t.map labelCols))).map Prod.snd).map f := by rw [List.map_map]; rfl
    rw [e1, e2, ← List.map_congr_left hfg, ← List.map_append]
    exact (hnames.trans (hperm.trans (n2.symm.append_right _))).map f
  have hz : ∀ v ∈ extra, _ := fun v hv => total_orphan (hzero v hv)
  have hcellV : ∀ (f : String → String → Rat) (g p : String) (x : Rat), cellOf (U.map (fun g => (g, U.map (fun p => (p, f g p))))) g p = some x →
      cellOf (V.map (fun g => (g, V.map (fun p => (p, f g p))))) g p = some x := by
    intro f g p x hx
    rw [cellOf_names] at hx ⊢
    by_cases hgp : g ∈ U ∧ p ∈ U
    · rw [if_pos hgp] at hx
      rw [if_pos ⟨hUV g hgp.1, hUV p hgp.2⟩]
      exact hx
    · rw [if_neg hgp] at hx
      exact absurd hx (by simp)
  have hlookV : ∀ (f : String → Rat) (v : String) (x : Rat), (U.map (fun v => (v, f v))).lookup v = some x →
      (V.map (fun v => (v, f v))).lookup v = some x := by
    intro f v x hx
    rw [lookup_names] at hx ⊢
    by_cases hv : v ∈ U
    · rw [if_pos hv] at hx
      rw [if_pos (hUV v hv)]
      exact hx
    · rw [if_neg hv] at hx
      exact absurd hx (by simp)
  refine ⟨R, A, e1, e2, by rw [a1, a2], ⟨_, _, _, _, _, _, c1, c2, hcellV _, hlookV _, hlookV _⟩, extra, hVnd.filter _, ?_, ?_, ?_, ?_, ?_, ?_, ?_⟩
  · intro v hv
    refine ⟨?_, hzero v hv⟩
    rw [hextra, List.mem_filter] at hv
    exact (h.labels v).1 (h.pre.subset hv.1)
  · intro hlast v hv
    rw [hextra, List.mem_filter, decide_eq_true_eq]
    refine ⟨?_, ?_⟩
    · rw [h.last hlast]
      exact (h.labels v).2 hv.1
    · intro hu
      obtain ⟨s, hsm, hc⟩ := (hUc v).1 hu
      exact hv.2 s hsm hc
  · rw [p1, p2]
    apply hlist (fun v => ⟨"Precision", .number (some (ratio ((written offers).map (fun s => pixelsOf s (some v) (some v))).sum
      ((written offers).map (fun s => pdPixelsOf s (some v))).sum)), some v⟩)
    intro v hv
    obtain ⟨z1, z2, z3⟩ := hz v hv
    simp only [z1, z3, ratio, if_true]
  · rw [r1, r2]
    apply hlist (fun v => ⟨"Recall", .number (some (ratio ((written offers).map (fun s => pixelsOf s (some v) (some v))).sum
      ((written offers).map (fun s => gtPixelsOf s (some v))).sum)), some v⟩)
    intro v hv
    obtain ⟨z1, z2, z3⟩ := hz v hv
    simp only [z1, z2, ratio, if_true]
  · rw [f1, f2]
    apply hlist (fun v => ⟨"F1", .number (some (ratio (2 * ((written offers).map (fun s => pixelsOf s (some v) (some v))).sum)
      (((written offers).map (fun s => gtPixelsOf s (some v))).sum + ((written offers).map (fun s => pdPixelsOf s (some v))).sum))), some v⟩)
    intro v hv
    obtain ⟨z1, z2, z3⟩ := hz v hv
    simp only [z1, z2, z3, ratio, if_true, Nat.add_zero]
  · rw [i1, i2]
    apply hlist (fun v => ⟨"IOU", .number (some (ratio ((written offers).map (fun s => pixelsOf s (some v) (some v))).sum
      (((written offers).map (fun s => gtPixelsOf s (some v))).sum + ((written offers).map (fun s => pdPixelsOf s (some v))).sum
        - ((written offers).map (fun s => pixelsOf s (some v) (some v))).sum))), some v⟩)
    intro v hv
    obtain ⟨z1, z2, z3⟩ := hz v hv
    simp only [z1, z2, z3, ratio, if_true, Nat.add_zero, Nat.sub_self]
  · refine ⟨_, U.length, ?_, m2, ?_⟩
    · rw [i2, List.length_map, ← n2.length_eq, List.length_map]
    · rw [m1, hperm.length_eq, List.length_append, (hperm.map _).sum_eq, List.map_append, List.sum_append]
      have : (extra.map (fun v => ratio ((written offers).map (fun s => pixelsOf s (some v) (some v))).sum
        (((written offers).map (fun s => gtPixelsOf s (some v))).sum + ((written offers).map (fun s => pdPixelsOf s (some v))).sum
        - ((written offers).map (fun s => pixelsOf s (some v) (some v))).sum))).sum = 0 := by
        apply List.sum_eq_zero
        intro x hx
        obtain ⟨v, hv, rfl⟩ := List.mem_map.1 hx
        obtain ⟨z1, z2, z3⟩ := hz v hv
        simp only [z1, z2, z3, ratio, if_true, Nat.add_zero, Nat.sub_self]
      rw [this, add_zero]

/-- The full statement, for offers satisfying `P`: the mean IoU is that of the accepted segmentations alone. -/
def MeanNoTrace (P : List (Seg × Bool) → Prop) : Prop :=
  ∀ offers : List (Seg × Bool), (∀ s ∈ written offers, SegOk s) → ((written offers).map Seg.size).sum < 2 ^ 64 →
    (∃ s ∈ written offers, ∃ v, Carries s v) → P offers →
    ∀ tables alone : List (List SRow), tables.flatten.Perm (Loader.init.offerAll offers).rows.flatten →
      alone.flatten.Perm (Loader.init.addAll [written offers]).rows.flatten →
      ∃ R A, (Evaluator.mk tables (extractLabels (tables.map (fun t => t.map labelCols)))).report none = .ok R ∧
        (Evaluator.mk alone (extractLabels (alone.map (fun t => t.map labelCols)))).report none = .ok A ∧ R.meanIou = A.meanIou

/-- **C99 (segmentation, mean, partial).** The mean IoU is that of the accepted segmentations if each offered label is accepted at least
once. What is missing: labels that were only refused (`C99_segmentation_violation`). -/
theorem C99_segmentation_partial : MeanNoTrace (fun offers => ∀ v, ¬ Orphan offers v) := by
  intro offers hok hs hne hno tables alone hp ha
  obtain ⟨R, A, e1, e2, _, _, extra, _, ho, _, _, _, _, _, sum, n, _, m1, m2⟩ := C99_segmentation offers hok hs hp ha hne
  have : extra = [] := List.eq_nil_iff_forall_not_mem.2 (fun v hv => hno v (ho v hv))
  subst this
  exact ⟨R, A, e1, e2, by rw [m1, m2]; simp⟩

/-- A refused image of a bird, then an accepted image of a cat that is segmented perfectly. -/
def birdRefused : List (Seg × Bool) :=
  [(⟨"d0", 1, [⟨[true], "bird", none⟩], [], none⟩, false), (⟨"d1", 2, [⟨[true, false], "cat", none⟩], [⟨[true, false], "cat", none⟩], none⟩, true)]

theorem birdRefused_ok : ∀ s ∈ written birdRefused, SegOk s := by
  intro s hs
  have : s = ⟨"d1", 2, [⟨[true, false], "cat", none⟩], [⟨[true, false], "cat", none⟩], none⟩ := by simpa [written, birdRefused] using hs
  subst this
  exact ⟨⟨by simp, by simp [Disjoint], by decide⟩, ⟨by simp, by simp [Disjoint], by decide⟩⟩

/-- **C99 (segmentation, violation).** In general it is not: after a refused image of a bird the mean IoU of a perfectly segmented image
of a cat is less than that of this image alone. -/
theorem C99_segmentation_violation : ¬ MeanNoTrace (fun _ => True) := by
  intro h
  have hne : ∃ s ∈ written birdRefused, ∃ v, Carries s v :=
    ⟨⟨"d1", 2, [⟨[true, false], "cat", none⟩], [⟨[true, false], "cat", none⟩], none⟩, by simp [written, birdRefused], "cat",
      ⟨[true, false], "cat", none⟩, by simp, rfl⟩
  obtain ⟨R, A, e1, e2, hm⟩ := h birdRefused birdRefused_ok (by decide) hne trivial (Loader.init.offerAll birdRefused).rows
    (Loader.init.addAll [written birdRefused]).rows (List.Perm.refl _) (List.Perm.refl _)
  have k1 : ((Evaluator.mk (Loader.init.offerAll birdRefused).rows
      (extractLabels ((Loader.init.offerAll birdRefused).rows.map (fun t => t.map labelCols)))).report none).map (fun R => R.meanIou)
      = .ok [⟨"mIOU", .number (some (1 / 2)), none⟩] := by decide +kernel
  have k2 : ((Evaluator.mk (Loader.init.addAll [written birdRefused]).rows
      (extractLabels ((Loader.init.addAll [written birdRefused]).rows.map (fun t => t.map labelCols)))).report none).map (fun R => R.meanIou)
      = .ok [⟨"mIOU", .number (some 1), none⟩] := by decide +kernel
  rw [e1] at k1
  rw [e2] at k2
  have k1' : R.meanIou = [⟨"mIOU", .number (some (1 / 2)), none⟩] := by injection k1
  have k2' : A.meanIou = [⟨"mIOU", .number (some 1), none⟩] := by injection k2
  rw [k1', k2'] at hm
  exact absurd hm (by decide +kernel)

/-- The bird is the label left behind. -/
example : Orphan birdRefused "bird" ∧ (birdRefused.getLast?).map Prod.snd = some true := by
  refine ⟨⟨⟨_, List.mem_cons_self, ⟨[true], "bird", none⟩, by simp, rfl⟩, ?_⟩, rfl⟩
  intro s hs
  have : s = ⟨"d1", 2, [⟨[true, false], "cat", none⟩], [⟨[true, false], "cat", none⟩], none⟩ := by simpa [written, birdRefused] using hs
  subst this
  rintro ⟨x, hx, e⟩
  simp only [List.cons_append, List.nil_append, List.mem_cons, List.not_mem_nil, or_false, or_self] at hx
  subst hx
  exact absurd e (by decide)

end Verif.Segmentation
