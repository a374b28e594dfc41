import Verif.Segmentation.Report
import Verif.Segmentation.HistProps
import Verif.Segmentation.FilterProps
import Verif.Shared.LabelKeys

/-! # C65: the metric lists of segmentation -/

namespace Verif.Segmentation

open Verif.Shared

theorem mapM_ok {α β ε : Type} {f : α → Except ε β} {g : α → β} {l : List α} (h : ∀ x ∈ l, f x = .ok (g x)) :
    l.mapM f = .ok (l.map g) := by
  induction l with
  | nil => rfl
  | cons a l ih =>
    rw [List.mapM_cons, h a (by simp), ih (fun x hx => h x (by simp [hx]))]
    rfl

theorem map_range_getElem {α β : Type} (L : List α) (f : α → β) (g : Nat → β) (h : ∀ i v, L[i]? = some v → g i = f v) :
    (List.range L.length).map g = L.map f := by
  apply List.ext_getElem
  · simp
  · intro i h1 h2
    rw [List.length_map, List.length_range] at h1
    simp only [List.getElem_map, List.getElem_range]
    exact h i _ (List.getElem?_eq_getElem h1)

theorem comprehension_ok {β : Type} {labels : List (Int × String)} {L : List String}
    (hl : ∀ (i : Int) (s : String), labels.lookup i = some s ↔ 0 ≤ i ∧ L[i.toNat]? = some s) (hnd : L.Nodup)
    {f : Nat → Except RepErr β} {g : String → β} (h : ∀ i v, L[i]? = some v → f i = .ok (g v)) :
    comprehension labels L.length f = .ok (L.map (fun v => (v, g v))) := by
  unfold comprehension
  have h1 : (List.range L.length).mapM (fun k => (labelOf labels k).bind (fun v => (f k).bind (fun y => .ok (v, y))))
      = .ok ((List.range L.length).map (fun k => (L.getD k "", g (L.getD k "")))) := by
    apply mapM_ok
    intro k hk
    have hk' := List.mem_range.1 hk
    have e : L[k]? = some L[k] := List.getElem?_eq_getElem hk'
    have e2 : labels.lookup (k : Int) = some L[k] := (hl k _).2 ⟨by omega, by simp⟩
    unfold labelOf
    rw [e2, h k _ e, List.getD_eq_getElem?_getD, e]
    rfl
  rw [h1, map_range_getElem L (fun v => (v, g v))]
  · change Except.ok (dictOf _) = _
    rw [dictOf_nodup]
    rw [List.map_map]
    simpa [Function.comp_def] using hnd
  · intro i v hv
    rw [List.getD_eq_getElem?_getD, hv]
    rfl

/-- The sum over the images of the dataset. -/
def total (calls : List (List Seg)) (f : Seg → Nat) : Nat := (calls.flatten.map f).sum

/-! ## Sums over a list of images -/

theorem sum_add {α : Type} (l : List α) (f g : α → Nat) : (l.map (fun x => f x + g x)).sum = (l.map f).sum + (l.map g).sum := by
  induction l with
  | nil => rfl
  | cons a l ih => simp only [List.map_cons, List.sum_cons, ih]; omega

theorem sum_swap {α β : Type} (l : List α) (k : List β) (f : α → β → Nat) :
    (l.map (fun x => (k.map (fun y => f x y)).sum)).sum = (k.map (fun y => (l.map (fun x => f x y)).sum)).sum := by
  induction k with
  | nil => simp
  | cons b k ih => simp only [List.map_cons, List.sum_cons, sum_add, ih]

theorem countP_fibres {α κ : Type} [DecidableEq κ] (l : List α) (key : α → κ) (q : α → Bool) {ks : List κ} (hk : ks.Nodup)
    (h : ∀ x ∈ l, key x ∈ ks) : (ks.map (fun k => l.countP (fun x => q x && decide (key x = k)))).sum = l.countP q := by
  induction l with
  | nil => simp
  | cons a l ih =>
    have ih' := ih (fun x hx => h x (by simp [hx]))
    simp only [List.countP_cons, sum_add, ih']
    congr 1
    have ha : key a ∈ ks := h a (by simp)
    clear ih ih' h
    cases hq : q a with
    | false => simp
    | true =>
      simp only [Bool.true_and, decide_eq_true_eq, if_true]
      induction ks with
      | nil => cases ha
      | cons k ks ihk =>
        rw [List.map_cons, List.sum_cons]
        rw [List.nodup_cons] at hk
        by_cases hka : key a = k
        · rw [if_pos hka]
          have : (ks.map (fun k => if key a = k then 1 else 0)).sum = 0 := by
            apply List.sum_eq_zero
            intro y hy
            obtain ⟨k', hk', rfl⟩ := List.mem_map.1 hy
            rw [if_neg]
            rintro rfl
            exact hk.1 (hka ▸ hk')
          rw [this]
        · rw [if_neg hka, ihk hk.2 ((List.mem_cons.1 ha).resolve_left hka)]

/-- The values of a pixel: background or a label. -/
def sides (L : List String) : List (Option String) := none :: L.map some

theorem sides_nodup {L : List String} (h : L.Nodup) : (sides L).Nodup := by
  unfold sides
  rw [List.nodup_cons]
  refine ⟨by simp, ?_⟩
  exact h.map (fun a b e => Option.some.inj e)

theorem mem_sides {L : List String} {o : Option String} : o ∈ sides L ↔ ∀ v ∈ o, v ∈ L := by
  cases o <;> simp [sides]

theorem sides_codes {L : List String} (h : L.Nodup) : (sides L).map (scode L) = List.range (L.length + 1) := by
  unfold sides
  rw [List.map_cons, List.map_map, List.range_succ_eq_map]
  congr 1
  apply List.ext_getElem
  · simp
  · intro i h1 h2
    simp only [List.length_map] at h1
    simp [scode, h.idxOf_getElem i h1]

/-- The report of a matrix with the pixel counts of a list of images. -/
theorem report_of_matrix {L : List String} (hnd : L.Nodup) (hne : L ≠ []) {labels : List (Int × String)}
    (d1 : (labels.map Prod.fst).Nodup) (d2 : ∀ (i : Int) (s : String), labels.lookup i = some s ↔ 0 ≤ i ∧ L[i.toNat]? = some s)
    (S : List Seg) (hin : ∀ s ∈ S, ∀ x, (∀ v ∈ itemAt s.gts x, v ∈ L) ∧ (∀ v ∈ itemAt s.pds x, v ∈ L))
    (hs : (S.map Seg.size).sum < 2 ^ 64) {M : Nat → Nat → Nat}
    (hM : ∀ a b, (∀ v ∈ a, v ∈ L) → (∀ v ∈ b, v ∈ L) → M (scode L a) (scode L b) = (S.map (fun s => pixelsOf s a b)).sum) :
    let total (f : Seg → Nat) := (S.map f).sum
    let both (g p : String) := total (fun s => pixelsOf s (some g) (some p))
    let gt (v : String) := total (fun s => gtPixelsOf s (some v))
    let pd (v : String) := total (fun s => pdPixelsOf s (some v))
    ∃ R, unpackReport M labels = .ok R ∧
      R.accuracy = [⟨"Accuracy", .number (some (ratio
        (total (fun s => (List.range s.size).countP (fun x => decide (itemAt s.gts x = itemAt s.pds x)))) (total Seg.size))), none⟩] ∧
      R.confusionMatrix = [⟨"ConfusionMatrix", .matrix
        (L.map (fun g => (g, L.map (fun p => (p, ratio (both g p) (gt g + pd p - both g p))))))
        (L.map (fun p => (p, ratio (total (fun s => pixelsOf s none (some p))) (pd p))))
        (L.map (fun g => (g, ratio (total (fun s => pixelsOf s (some g) none)) (gt g)))), none⟩] ∧
      R.meanIou = [⟨"mIOU", .number (some ((L.map (fun v => ratio (both v v) (gt v + pd v - both v v))).sum / L.length)), none⟩] ∧
      R.precision = labels.map (fun x => ⟨"Precision", .number (some (ratio (both x.2 x.2) (pd x.2))), some x.2⟩) ∧
      R.recall = labels.map (fun x => ⟨"Recall", .number (some (ratio (both x.2 x.2) (gt x.2))), some x.2⟩) ∧
      R.f1 = labels.map (fun x => ⟨"F1", .number (some (ratio (2 * both x.2 x.2) (gt x.2 + pd x.2))), some x.2⟩) ∧
      R.iou = labels.map (fun x => ⟨"IOU", .number (some (ratio (both x.2 x.2) (gt x.2 + pd x.2 - both x.2 x.2))), some x.2⟩) := by
  intro total both gt pd
  have hlen : labels.length = L.length := by
    have := numbered_length d1 d2
    simpa [numbered] using this
  have hnone : ∀ v ∈ (none : Option String), v ∈ L := by rintro w ⟨⟩
  have hsome : ∀ v ∈ L, ∀ w ∈ some v, w ∈ L := by rintro v hv w ⟨⟩; exact hv
  -- sums over the columns and rows
  have hup : ∀ f : Nat → Nat, upTo (L.length + 1) f = ((sides L).map (fun o => f (scode L o))).sum := by
    intro f
    unfold upTo
    rw [← sides_codes hnd, List.map_map]
    rfl
  have hgtp : ∀ a, (∀ v ∈ a, v ∈ L) → ((sides L).map (fun o => M (scode L a) (scode L o))).sum = total (fun s => gtPixelsOf s a) := by
    intro a ha
    rw [List.map_congr_left (fun o ho => hM a o ha (mem_sides.1 ho)), ← sum_swap]
    change _ = (S.map _).sum
    congr 1
    apply List.map_congr_left
    intro s hsm
    have := countP_fibres (List.range s.size) (fun x => itemAt s.pds x) (fun x => decide (itemAt s.gts x = a)) (sides_nodup hnd)
      (fun x _ => mem_sides.2 (hin s hsm x).2)
    rw [gtPixelsOf, ← this]
    congr 1
    apply List.map_congr_left
    intro o _
    unfold pixelsOf
    congr 1
    funext x
    simp
  have hpdp : ∀ b, (∀ v ∈ b, v ∈ L) → ((sides L).map (fun o => M (scode L o) (scode L b))).sum = total (fun s => pdPixelsOf s b) := by
    intro b hb
    rw [List.map_congr_left (fun o ho => hM o b (mem_sides.1 ho) hb), ← sum_swap]
    change _ = (S.map _).sum
    congr 1
    apply List.map_congr_left
    intro s hsm
    have := countP_fibres (List.range s.size) (fun x => itemAt s.gts x) (fun x => decide (itemAt s.pds x = b)) (sides_nodup hnd)
      (fun x _ => mem_sides.2 (hin s hsm x).1)
    rw [pdPixelsOf, ← this]
    congr 1
    apply List.map_congr_left
    intro o _
    unfold pixelsOf
    congr 1
    funext x
    simp [Bool.and_comm]
  have h1 : allPixels L.length M = total Seg.size := by
    unfold allPixels
    simp only [hup]
    rw [List.map_congr_left (fun o ho => hgtp o (mem_sides.1 ho)), ← sum_swap]
    change (S.map _).sum = (S.map _).sum
    congr 1
    apply List.map_congr_left
    intro s hsm
    have := countP_fibres (List.range s.size) (fun x => itemAt s.gts x) (fun _ => true) (sides_nodup hnd)
      (fun x _ => mem_sides.2 (hin s hsm x).1)
    simp only [List.countP_true, List.length_range, Bool.true_and] at this
    rw [← this]
    rfl
  have hb : allPixels L.length M < 2 ^ 64 := by rw [h1]; exact hs
  obtain ⟨v1, v2, v3⟩ := C39_values hb
  have hidx : ∀ i v, L[i]? = some v → L.idxOf v = i ∧ v ∈ L ∧ i < L.length := by
    intro i v hv
    obtain ⟨hlt, he⟩ := List.getElem?_eq_some_iff.1 hv
    refine ⟨?_, he ▸ List.getElem_mem hlt, hlt⟩
    rw [← he]
    exact hnd.idxOf_getElem i hlt
  have hboth : ∀ i g j p, L[i]? = some g → L[j]? = some p → M (i + 1) (j + 1) = both g p := by
    intro i g j p hg hp'
    obtain ⟨e1, m1, _⟩ := hidx i g hg
    obtain ⟨e2, m2, _⟩ := hidx j p hp'
    have := hM (some g) (some p) (hsome g m1) (hsome p m2)
    simp only [scode] at this
    rw [← e1, ← e2]
    exact this
  have hgt : ∀ i g, L[i]? = some g → gtPixels L.length M i = gt g := by
    intro i g hg
    obtain ⟨e1, m1, _⟩ := hidx i g hg
    have := hgtp (some g) (hsome g m1)
    rw [← hup] at this
    rw [← e1]
    exact this
  have hpd : ∀ i g, L[i]? = some g → pdPixels L.length M i = pd g := by
    intro i g hg
    obtain ⟨e1, m1, _⟩ := hidx i g hg
    have := hpdp (some g) (hsome g m1)
    rw [← hup (fun i => M i (scode L (some g)))] at this
    rw [← e1]
    exact this
  have hiou : ∀ i g j p, L[i]? = some g → L[j]? = some p → iou L.length M i j = ratio (both g p) (gt g + pd p - both g p) := by
    intro i g j p hg hp'
    rw [v2 i (hidx i g hg).2.2 j (hidx j p hp').2.2, hboth i g j p hg hp', hgt i g hg, hpd j p hp']
  have hcm : comprehension labels L.length (fun i => comprehension labels L.length (fun j => .ok (iou L.length M i j)))
      = .ok (L.map (fun g => (g, L.map (fun p => (p, ratio (both g p) (gt g + pd p - both g p)))))) :=
    comprehension_ok d2 hnd (fun i g hg => comprehension_ok d2 hnd (fun j p hp' => by rw [hiou i g j p hg hp']))
  have hupr : comprehension labels L.length (fun j => .ok (unmatchedPrediction L.length M j))
      = .ok (L.map (fun p => (p, ratio (total (fun s => pixelsOf s none (some p))) (pd p)))) := by
    apply comprehension_ok d2 hnd
    intro j p hp'
    obtain ⟨e2, m2, lt⟩ := hidx j p hp'
    have := hM none (some p) hnone (hsome p m2)
    simp only [scode] at this
    rw [(v1 j lt).2.2.1, hpd j p hp', ← e2]
    congr 2
  have hugr : comprehension labels L.length (fun i => .ok (unmatchedGroundtruth L.length M i))
      = .ok (L.map (fun g => (g, ratio (total (fun s => pixelsOf s (some g) none)) (gt g)))) := by
    apply comprehension_ok d2 hnd
    intro i g hg
    obtain ⟨e1, m1, lt⟩ := hidx i g hg
    have := hM (some g) none (hsome g m1) hnone
    simp only [scode] at this
    rw [(v1 i lt).2.2.2, hgt i g hg, ← e1]
    congr 2
  have hlabel : ∀ x ∈ labels, 0 ≤ x.1 ∧ L[x.1.toNat]? = some x.2 := by
    intro x hx
    apply (d2 x.1 x.2).1
    obtain ⟨l1, l2, he⟩ := List.append_of_mem hx
    rw [List.lookup_eq_some_iff]
    refine ⟨l1, l2, he, ?_⟩
    intro p hp'
    have hnd' : (labels.map Prod.fst).Nodup := d1
    rw [he, List.map_append, List.nodup_append] at hnd'
    have := hnd'.2.2 p.1 (List.mem_map_of_mem hp') x.1 (by simp)
    simpa using this.symm
  have hcells : labels.mapM (fun lb => (axisOf L.length lb.1).bind (fun k => Except.ok
      (Metric.precision (precision L.length M k) lb.2, Metric.recall (recall L.length M k) lb.2, Metric.f1Score (f1 L.length M k) lb.2,
        Metric.iou (iou L.length M k k) lb.2)))
      = (.ok (labels.map (fun lb => (Metric.precision (ratio (both lb.2 lb.2) (pd lb.2)) lb.2, Metric.recall (ratio (both lb.2 lb.2) (gt lb.2)) lb.2,
        Metric.f1Score (ratio (2 * both lb.2 lb.2) (gt lb.2 + pd lb.2)) lb.2,
        Metric.iou (ratio (both lb.2 lb.2) (gt lb.2 + pd lb.2 - both lb.2 lb.2)) lb.2))) : Except RepErr _) := by
    apply mapM_ok
    intro lb hlb
    obtain ⟨p0, he⟩ := hlabel lb hlb
    obtain ⟨_, _, lt⟩ := hidx _ _ he
    have hax : axisOf L.length lb.1 = .ok lb.1.toNat := by
      unfold axisOf
      rw [if_pos p0, if_pos (by omega)]
    rw [hax]
    change Except.ok _ = _
    rw [(v1 _ lt).1, (v1 _ lt).2.1, (C39_f1 hb lt).1, hiou _ _ _ _ he he, hboth _ _ _ _ he he, hgt _ _ he, hpd _ _ he]
  have hmean : meanIou L.length M = some ((L.map (fun v => ratio (both v v) (gt v + pd v - both v v))).sum / L.length) := by
    unfold meanIou
    rw [if_neg (by rw [List.length_eq_zero_iff]; exact hne), map_range_getElem L (fun v => ratio (both v v) (gt v + pd v - both v v))]
    intro i v hv
    exact hiou i v i v hv hv
  have hacc : accuracy L.length M = ratio
      (total (fun s => (List.range s.size).countP (fun x => decide (itemAt s.gts x = itemAt s.pds x)))) (total Seg.size) := by
    rw [v3, h1, hup (fun i => M i i), List.map_congr_left (fun o ho => hM o o (mem_sides.1 ho) (mem_sides.1 ho)), ← sum_swap]
    congr 1
    change (S.map _).sum = (S.map _).sum
    congr 1
    apply List.map_congr_left
    intro s hsm
    have := countP_fibres (List.range s.size) (fun x => itemAt s.gts x) (fun x => decide (itemAt s.gts x = itemAt s.pds x)) (sides_nodup hnd)
      (fun x _ => mem_sides.2 (hin s hsm x).1)
    rw [← this]
    congr 1
    apply List.map_congr_left
    intro o _
    unfold pixelsOf
    congr 1
    funext x
    rw [Bool.eq_iff_iff]
    simp only [Bool.and_eq_true, decide_eq_true_eq]
    constructor
    · rintro ⟨e, e'⟩; exact ⟨e.trans e'.symm, e⟩
    · rintro ⟨e, e'⟩; exact ⟨e', e ▸ e'⟩
  refine ⟨_, by
    unfold unpackReport
    dsimp only
    rw [hlen, hcm, hupr, hugr]
    simp only [bind, Except.bind]
    simp only [Except.bind] at hcells
    rw [hcells, hmean], ?_, rfl, rfl, ?_, ?_, ?_, ?_⟩
  · change [Metric.accuracy (accuracy L.length M)] = _
    rw [hacc]
    rfl
  all_goals (simp only [List.map_map]; rfl)

theorem items_labels {calls : List (List Seg)} {s : Seg} (h : s ∈ calls.flatten) (x : Nat) :
    (∀ v ∈ itemAt s.gts x, v ∈ (Loader.init.addAll calls).labels) ∧ (∀ v ∈ itemAt s.pds x, v ∈ (Loader.init.addAll calls).labels) := by
  constructor <;>
  · intro v hv
    obtain ⟨it, hit, rfl⟩ := itemAt_mem hv
    exact ((loaded calls).labels _).2 ⟨s, h, it, by simp [hit], rfl⟩

/-- **C65 (report).** For images with disjoint masks and distinct labels, in any order and batching, every division of the rows into tables,
and the labels that `extract_labels` reads from the tables: the report succeeds. Every label of the data occurs once in the lists
of precision, recall, F1 and IoU, with the quotients of its pixel counts. The confusion matrix has one cell per pair of labels, by
name, with the IoU of the pixels of the ground truth label and of the predicted label, and the shares of the pixels of each label
that lie on background. The mean IoU is the mean of the IoU of the labels. -/
theorem C65_report (calls : List (List Seg)) (hok : ∀ s ∈ calls.flatten, SegOk s)
    (hs : (calls.flatten.map Seg.size).sum < 2 ^ 64) {tables : List (List SRow)}
    (hp : tables.flatten.Perm (Loader.init.addAll calls).rows.flatten) (hne : (Loader.init.addAll calls).labels ≠ []) :
    let L := (Loader.init.addAll calls).labels
    let labels := extractLabels (tables.map (fun t => t.map labelCols))
    let both (g p : String) := total calls (fun s => pixelsOf s (some g) (some p))
    let gt (v : String) := total calls (fun s => gtPixelsOf s (some v))
    let pd (v : String) := total calls (fun s => pdPixelsOf s (some v))
    (labels.map Prod.snd).Perm L ∧
    ∃ R, (Evaluator.mk tables labels).report none = .ok R ∧
      R.accuracy = [⟨"Accuracy", .number (some (ratio
        (total calls (fun s => (List.range s.size).countP (fun x => decide (itemAt s.gts x = itemAt s.pds x)))) (total calls Seg.size))), none⟩] ∧
      R.confusionMatrix = [⟨"ConfusionMatrix", .matrix
        (L.map (fun g => (g, L.map (fun p => (p, ratio (both g p) (gt g + pd p - both g p))))))
        (L.map (fun p => (p, ratio (total calls (fun s => pixelsOf s none (some p))) (pd p))))
        (L.map (fun g => (g, ratio (total calls (fun s => pixelsOf s (some g) none)) (gt g)))), none⟩] ∧
      R.meanIou = [⟨"mIOU", .number (some ((L.map (fun v => ratio (both v v) (gt v + pd v - both v v))).sum / L.length)), none⟩] ∧
      R.precision = labels.map (fun x => ⟨"Precision", .number (some (ratio (both x.2 x.2) (pd x.2))), some x.2⟩) ∧
      R.recall = labels.map (fun x => ⟨"Recall", .number (some (ratio (both x.2 x.2) (gt x.2))), some x.2⟩) ∧
      R.f1 = labels.map (fun x => ⟨"F1", .number (some (ratio (2 * both x.2 x.2) (gt x.2 + pd x.2))), some x.2⟩) ∧
      R.iou = labels.map (fun x => ⟨"IOU", .number (some (ratio (both x.2 x.2) (gt x.2 + pd x.2 - both x.2 x.2))), some x.2⟩) := by
  intro L labels both gt pd
  obtain ⟨d1, d2⟩ := C50_segmentation calls hp
  have hlen : labels.length = L.length := by
    have := numbered_length d1 d2
    simpa [numbered] using this
  have hnames : (labels.map Prod.snd).Perm L := by
    have := numbered_names d1 d2
    simpa [numbered, List.map_map, Function.comp_def] using this
  refine ⟨hnames, ?_⟩
  obtain ⟨R, h, hR⟩ := report_of_matrix (loaded calls).nodup hne d1 d2 calls.flatten (fun s hsm x => items_labels hsm x) hs
    (M := confusionMatrix labels.length none tables) (fun a b ha hb => by rw [hlen]; exact C38_matrix calls hok hs hp ha hb)
  exact ⟨R, h, hR⟩

/-- The images that a filter of the datums accepts, without the masks that the filters of the labels reject. -/
def selected (calls : List (List Seg)) (fd : Nat → Bool) (fg fp : Nat → String → Bool) : List Seg :=
  (calls.flatten.zipIdx.filter (fun sk => fd sk.2)).map (fun sk => sk.1.drop (fg sk.2) (fp sk.2))

theorem selected_size (calls : List (List Seg)) (fd : Nat → Bool) (fg fp : Nat → String → Bool) :
    ((selected calls fd fg fp).map Seg.size).sum ≤ (calls.flatten.map Seg.size).sum := by
  unfold selected
  rw [List.map_map, ← zipIdx_map_fst calls.flatten Seg.size 0]
  exact (List.filter_sublist.map _).sum_le_sum (fun _ _ => Nat.zero_le _)

theorem selected_labels {calls : List (List Seg)} {fd : Nat → Bool} {fg fp : Nat → String → Bool} {s : Seg}
    (h : s ∈ selected calls fd fg fp) (x : Nat) :
    (∀ v ∈ itemAt s.gts x, v ∈ (Loader.init.addAll calls).labels) ∧ (∀ v ∈ itemAt s.pds x, v ∈ (Loader.init.addAll calls).labels) := by
  obtain ⟨sk, hsk, rfl⟩ := List.mem_map.1 h
  have hsm : sk.1 ∈ calls.flatten := (List.mem_zipIdx' (by exact (List.mem_filter.1 hsk).1)).2 ▸ List.getElem_mem _
  constructor <;>
  · intro v hv
    obtain ⟨it, hit, rfl⟩ := itemAt_mem hv
    have := (List.mem_filter.1 hit).1
    exact ((loaded calls).labels _).2 ⟨sk.1, hsm, it, by simp [this], rfl⟩

/-- **C65 (filtered report).** For filters decided by the image (datums) and by the image and the label of a mask (ground truths,
predictions): the report of the filtered evaluator, which keeps the labels of the source, succeeds; it is the report of the pixels of
the accepted images with the rejected masks left out. Labels without pixels stay in the lists. -/
theorem C65_filtered_report (calls : List (List Seg)) (hok : ∀ s ∈ calls.flatten, SegOk s)
    (hs : (calls.flatten.map Seg.size).sum < 2 ^ 64) {tables : List (List SRow)}
    (hp : tables.flatten.Perm (Loader.init.addAll calls).rows.flatten) (hne : (Loader.init.addAll calls).labels ≠ [])
    {fd : Nat → Bool} {fg fp : Nat → String → Bool} {d g p : Expr} (hd : OnDatum fd d) (hg : OnGt fg g) (hq : OnPd fp p) :
    let L := (Loader.init.addAll calls).labels
    let labels := extractLabels (tables.map (fun t => t.map labelCols))
    let S := (calls.flatten.zipIdx.filter (fun sk => fd sk.2)).map (fun sk => sk.1.drop (fg sk.2) (fp sk.2))
    let total (f : Seg → Nat) := (S.map f).sum
    let both (g p : String) := total (fun s => pixelsOf s (some g) (some p))
    let gt (v : String) := total (fun s => gtPixelsOf s (some v))
    let pd (v : String) := total (fun s => pdPixelsOf s (some v))
    ∃ R, (Evaluator.mk (filterTables (some d) (some g) (some p) tables) labels).report none = .ok R ∧
      R.accuracy = [⟨"Accuracy", .number (some (ratio
        (total (fun s => (List.range s.size).countP (fun x => decide (itemAt s.gts x = itemAt s.pds x)))) (total Seg.size))), none⟩] ∧
      R.confusionMatrix = [⟨"ConfusionMatrix", .matrix
        (L.map (fun g => (g, L.map (fun p => (p, ratio (both g p) (gt g + pd p - both g p))))))
        (L.map (fun p => (p, ratio (total (fun s => pixelsOf s none (some p))) (pd p))))
        (L.map (fun g => (g, ratio (total (fun s => pixelsOf s (some g) none)) (gt g)))), none⟩] ∧
      R.meanIou = [⟨"mIOU", .number (some ((L.map (fun v => ratio (both v v) (gt v + pd v - both v v))).sum / L.length)), none⟩] ∧
      R.precision = labels.map (fun x => ⟨"Precision", .number (some (ratio (both x.2 x.2) (pd x.2))), some x.2⟩) ∧
      R.recall = labels.map (fun x => ⟨"Recall", .number (some (ratio (both x.2 x.2) (gt x.2))), some x.2⟩) ∧
      R.f1 = labels.map (fun x => ⟨"F1", .number (some (ratio (2 * both x.2 x.2) (gt x.2 + pd x.2))), some x.2⟩) ∧
      R.iou = labels.map (fun x => ⟨"IOU", .number (some (ratio (both x.2 x.2) (gt x.2 + pd x.2 - both x.2 x.2))), some x.2⟩) := by
  intro L labels S total both gt pd
  obtain ⟨d1, d2⟩ := C50_segmentation calls hp
  have hlen : labels.length = L.length := by
    have := numbered_length d1 d2
    simpa [numbered] using this
  exact report_of_matrix (loaded calls).nodup hne d1 d2 (selected calls fd fg fp) (fun s hsm x => selected_labels hsm x)
    (lt_of_le_of_lt (selected_size _ _ _ _) hs) (M := confusionMatrix labels.length none _)
    (fun a b ha hb => by
      rw [hlen, C40_meaning calls hok hs hp hd hg hq ha hb]
      unfold selected
      rw [List.map_map]
      rfl)

theorem matrix_datums (n : Nat) (d : Expr) (tables : List (List SRow)) :
    confusionMatrix n (some d) tables = confusionMatrix n none (filterTables (some d) (some fun _ => true) (some fun _ => true) tables) := by
  have h : filterTables (some d) (some fun _ => true) (some fun _ => true) tables = tables.map (readTable (some d)) := by
    unfold filterTables
    apply List.map_congr_left
    intro t _
    have hv : ∀ (f : SRow → Int × Int) (l : List SRow), ∀ r ∈ l, validMask (some fun _ => true) f l r = true := by
      intro f l r hr
      rw [validMask_iff]
      exact ⟨r, hr, rfl, rfl⟩
    unfold filterTable
    dsimp only
    conv_rhs => rw [← List.map_id (readTable (some d) t)]
    apply List.map_congr_left
    intro r hr
    rw [hv _ _ r hr, hv _ _ r hr]
    rfl
  funext i j
  rw [h]
  unfold confusionMatrix
  rw [List.foldl_map]
  rfl

/-- **C65 (datum filter).** `compute_precision_recall_iou(datums=..)` with a filter decided by the image is the report of the pixels
of the accepted images. -/
theorem C65_datums_report (calls : List (List Seg)) (hok : ∀ s ∈ calls.flatten, SegOk s)
    (hs : (calls.flatten.map Seg.size).sum < 2 ^ 64) {tables : List (List SRow)}
    (hp : tables.flatten.Perm (Loader.init.addAll calls).rows.flatten) (hne : (Loader.init.addAll calls).labels ≠ [])
    {fd : Nat → Bool} {d : Expr} (hd : OnDatum fd d) :
    let L := (Loader.init.addAll calls).labels
    let labels := extractLabels (tables.map (fun t => t.map labelCols))
    let S := (calls.flatten.zipIdx.filter (fun sk => fd sk.2)).map Prod.fst
    let total (f : Seg → Nat) := (S.map f).sum
    let both (g p : String) := total (fun s => pixelsOf s (some g) (some p))
    let gt (v : String) := total (fun s => gtPixelsOf s (some v))
    let pd (v : String) := total (fun s => pdPixelsOf s (some v))
    ∃ R, (Evaluator.mk tables labels).report (some d) = .ok R ∧
      R.accuracy = [⟨"Accuracy", .number (some (ratio
        (total (fun s => (List.range s.size).countP (fun x => decide (itemAt s.gts x = itemAt s.pds x)))) (total Seg.size))), none⟩] ∧
      R.confusionMatrix = [⟨"ConfusionMatrix", .matrix
        (L.map (fun g => (g, L.map (fun p => (p, ratio (both g p) (gt g + pd p - both g p))))))
        (L.map (fun p => (p, ratio (total (fun s => pixelsOf s none (some p))) (pd p))))
        (L.map (fun g => (g, ratio (total (fun s => pixelsOf s (some g) none)) (gt g)))), none⟩] ∧
      R.meanIou = [⟨"mIOU", .number (some ((L.map (fun v => ratio (both v v) (gt v + pd v - both v v))).sum / L.length)), none⟩] ∧
      R.precision = labels.map (fun x => ⟨"Precision", .number (some (ratio (both x.2 x.2) (pd x.2))), some x.2⟩) ∧
      R.recall = labels.map (fun x => ⟨"Recall", .number (some (ratio (both x.2 x.2) (gt x.2))), some x.2⟩) ∧
      R.f1 = labels.map (fun x => ⟨"F1", .number (some (ratio (2 * both x.2 x.2) (gt x.2 + pd x.2))), some x.2⟩) ∧
      R.iou = labels.map (fun x => ⟨"IOU", .number (some (ratio (both x.2 x.2) (gt x.2 + pd x.2 - both x.2 x.2))), some x.2⟩) := by
  have hS : selected calls fd (fun _ _ => true) (fun _ _ => true) = (calls.flatten.zipIdx.filter (fun sk => fd sk.2)).map Prod.fst := by
    unfold selected Seg.drop
    apply List.map_congr_left
    intro sk _
    simp only [List.filter_true]
  have h := C65_filtered_report calls hok hs hp hne hd (fg := fun _ _ => true) (fp := fun _ _ => true)
    (g := fun _ => true) (p := fun _ => true) (fun _ _ => rfl) (fun _ _ => rfl)
  intro L labels S total both gt pd
  dsimp only at h
  rw [show (calls.flatten.zipIdx.filter (fun sk => fd sk.2)).map (fun sk => sk.1.drop (fun _ => true) (fun _ => true)) = S from hS] at h
  obtain ⟨R, h1, hR⟩ := h
  refine ⟨R, ?_, hR⟩
  rw [← h1]
  unfold Evaluator.report
  dsimp only
  rw [matrix_datums]

/-- **C65 (no labels).** Without labels the mean is NaN. -/
theorem C65_no_labels (tables : List (List SRow)) : ∃ R, (Evaluator.mk tables []).report none = .ok R ∧ R.meanIou = [⟨"mIOU", .number none, none⟩] :=
  ⟨_, rfl, rfl⟩

/-- **C65 (reloaded filtered cache), violation.** An evaluator that reads its labels from a filtered cache (`Evaluator.load` without
`index_to_label_override`) can raise a `KeyError`. -/
theorem C65_reload_violation :
    let rows := (Loader.init.addAll [[colorSeg]]).rows.flatten
    let t := filterTables none (some fun r => decide (r.gtLabel = some "y")) (some fun r => decide (r.pdLabel = some "y")) [rows]
    (Evaluator.mk t (extractLabels (t.map (fun t => t.map labelCols)))).report none = .error .keyError := by
  decide +kernel

example : ((Evaluator.mk [(Loader.init.addAll sampleCalls).rows.flatten]
    (extractLabels ([(Loader.init.addAll sampleCalls).rows.flatten].map (fun t => t.map labelCols)))).report none).toOption.map
      (fun R => (R.meanIou, R.iou)) =
    some ([⟨"mIOU", .number (some (1/6)), none⟩],
      [⟨"IOU", .number (some 0), some "x"⟩, ⟨"IOU", .number (some (1/2)), some "y"⟩, ⟨"IOU", .number (some 0), some "z"⟩]) := by
  decide +kernel

/-- The datum filter keeps the first image, the ground truth filter drops the masks of `x`. -/
example : OnDatum (fun k => decide (k = 0)) (fun r => decide (r.datum.toNat = 0)) ∧
    OnGt (fun _ v => decide (v ≠ "x")) (fun r => decide (r.gtLabel.getD "" ≠ "x")) ∧ OnPd (fun _ _ => true) (fun _ => true) ∧
    (let rows := (Loader.init.addAll sampleCalls).rows.flatten
     let labels := extractLabels ([rows].map (fun t => t.map labelCols))
     ((Evaluator.mk [rows] labels).report (some fun r => decide (r.datum.toNat = 0))).toOption.map (fun R => (R.accuracy, R.recall)) =
       some ([⟨"Accuracy", .number (some (2/3)), none⟩],
         [⟨"Recall", .number (some 0), some "x"⟩, ⟨"Recall", .number (some 1), some "y"⟩, ⟨"Recall", .number (some 0), some "z"⟩]) ∧
     ((Evaluator.mk (filterTables (some fun r => decide (r.datum.toNat = 0)) (some fun r => decide (r.gtLabel.getD "" ≠ "x")) (some fun _ => true) [rows])
        labels).report none).toOption.map (fun R => R.precision) =
       some [⟨"Precision", .number (some 0), some "x"⟩, ⟨"Precision", .number (some (1/2)), some "y"⟩, ⟨"Precision", .number (some 0), some "z"⟩]) :=
  ⟨fun _ => rfl, fun _ _ => rfl, fun _ _ => rfl, by decide +kernel⟩

end Verif.Segmentation
