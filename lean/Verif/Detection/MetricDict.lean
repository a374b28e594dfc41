import Verif.Detection.ReportMetrics

/-!
# C95 for detection: a metric is identified by its type and parameters

`Metric` (`object_detection/metric.py`) and `BaseMetric.to_dict` (`schemas.py` 10-11).
-/

namespace Verif.Detection

/-- A value in the dictionary `parameters`. -/
inductive Param where
  | number (x : Rat)
  | numbers (xs : List Rat)
  | text (s : String)
deriving DecidableEq, Repr

/-- `type`, with the values of `MetricType` (`metric.py` 7-23) that the constructors (60-563) give it. -/
def DMetric.type : DMetric → String
  | .ap _ _ _ => "AP"
  | .mAP _ _ => "mAP"
  | .apOverIous _ _ _ => "APAveragedOverIOUs"
  | .mAPOverIous _ _ => "mAPAveragedOverIOUs"
  | .ar _ _ _ _ => "AR"
  | .mAR _ _ _ => "mAR"
  | .arOverScores _ _ _ _ => "ARAveragedOverScores"
  | .mAROverScores _ _ _ => "mARAveragedOverScores"
  | .prCurve _ _ _ _ => "PrecisionRecallCurve"
  | .counts _ _ _ _ _ _ => "Counts"
  | .precision _ _ _ _ => "Precision"
  | .recall _ _ _ _ => "Recall"
  | .f1 _ _ _ _ => "F1"

/-- `parameters`: the dictionaries of the constructors (`metric.py` 88-97, 128-137, 168-177, 206-213, 241-246, 276-283, 311-316, 350-358,
389-396, 428-436, 466-473, 505-515, 550-563), as lists of items. -/
def DMetric.parameters : DMetric → List (String × Param)
  | .ap _ t l => [("iou_threshold", .number t), ("label", .text l)]
  | .mAP _ t => [("iou_threshold", .number t)]
  | .apOverIous _ ts l => [("iou_thresholds", .numbers ts), ("label", .text l)]
  | .mAPOverIous _ ts => [("iou_thresholds", .numbers ts)]
  | .ar _ ts s l => [("iou_thresholds", .numbers ts), ("score_threshold", .number s), ("label", .text l)]
  | .mAR _ ts s => [("iou_thresholds", .numbers ts), ("score_threshold", .number s)]
  | .arOverScores _ ss ts l => [("iou_thresholds", .numbers ts), ("score_thresholds", .numbers ss), ("label", .text l)]
  | .mAROverScores _ ss ts => [("iou_thresholds", .numbers ts), ("score_thresholds", .numbers ss)]
  | .prCurve _ _ t l => [("iou_threshold", .number t), ("label", .text l)]
  | .counts _ _ _ l t s => [("iou_threshold", .number t), ("score_threshold", .number s), ("label", .text l)]
  | .precision _ l t s => [("label", .text l), ("iou_threshold", .number t), ("score_threshold", .number s)]
  | .recall _ l t s => [("label", .text l), ("iou_threshold", .number t), ("score_threshold", .number s)]
  | .f1 _ l t s => [("label", .text l), ("iou_threshold", .number t), ("score_threshold", .number s)]

/-- `value`: a float (`none` is NaN), or a dictionary of lists or of integers. -/
inductive DValue where
  | float (x : Option Rat)
  | lists (items : List (String × List Rat))
  | integers (items : List (String × Nat))
deriving DecidableEq, Repr

/-- `value`, as the constructors set it (`metric.py` 60-563). -/
def DMetric.value : DMetric → DValue
  | .ap v _ _ => .float v
  | .mAP v _ => .float v
  | .apOverIous v _ _ => .float v
  | .mAPOverIous v _ => .float v
  | .ar v _ _ _ => .float v
  | .mAR v _ _ => .float v
  | .arOverScores v _ _ _ => .float v
  | .mAROverScores v _ _ => .float v
  | .prCurve ps ss _ _ => .lists [("precisions", ps), ("scores", ss)]
  | .counts a b c _ _ _ => .integers [("tp", a), ("fp", b), ("fn", c)]
  | .precision v _ _ _ => .float (some v)
  | .recall v _ _ _ => .float (some v)
  | .f1 v _ _ _ => .float (some v)

/-- `BaseMetric.to_dict` (`schemas.py` 10-11): the three fields. -/
def DMetric.toDict (m : DMetric) : String × DValue × List (String × Param) := (m.type, m.value, m.parameters)

/-- **C95 (`to_dict`).** The dictionary tells everything: metrics with equal dictionaries are equal. -/
theorem C95_toDict {m m' : DMetric} (h : m.toDict = m'.toDict) : m = m' := by
  unfold DMetric.toDict at h
  rw [Prod.mk.injEq, Prod.mk.injEq] at h
  obtain ⟨h1, h2, h3⟩ := h
  cases m <;> cases m' <;> first
    | (exfalso; revert h1; simp only [DMetric.type]; decide)
    | (simp only [DMetric.parameters, DMetric.value, List.cons.injEq, Prod.mk.injEq, Param.number.injEq, Param.numbers.injEq, Param.text.injEq,
        DValue.float.injEq, DValue.lists.injEq, DValue.integers.injEq, Option.some.injEq, true_and, and_true] at h2 h3
       simp only [h2, h3])

/-- What a metric is about: its type and its parameters. -/
def DMetric.key (m : DMetric) : String × List (String × Param) := (m.type, m.parameters)

/-- The shape of the entries of a report, with arbitrary values that depend on nothing but the label and the thresholds. -/
inductive Shape (labels : List (Nat × String)) (ious scores : List Rat) (a : Rat → Int → Option Rat) (b : Rat → Option Rat) (c : Int → Option Rat)
    (d : Option Rat) (e : Rat → Int → Option Rat) (f : Rat → Option Rat) (g : Int → Option Rat) (h : Option Rat) (i j : Rat → Int → List Rat)
    (k l m : Rat → Rat → Int → Nat) (n o p : Rat → Rat → Int → Rat) : DMetric → Prop where
  | ap {t lb} : lb ∈ labels → Shape labels ious scores a b c d e f g h i j k l m n o p (.ap (a t (lb.1 : Int)) t lb.2)
  | mAP {t} : Shape labels ious scores a b c d e f g h i j k l m n o p (.mAP (b t) t)
  | apOverIous {lb} : lb ∈ labels → Shape labels ious scores a b c d e f g h i j k l m n o p (.apOverIous (c (lb.1 : Int)) ious lb.2)
  | mAPOverIous : Shape labels ious scores a b c d e f g h i j k l m n o p (.mAPOverIous d ious)
  | ar {s lb} : lb ∈ labels → Shape labels ious scores a b c d e f g h i j k l m n o p (.ar (e s (lb.1 : Int)) ious s lb.2)
  | mAR {s} : Shape labels ious scores a b c d e f g h i j k l m n o p (.mAR (f s) ious s)
  | arOverScores {lb} : lb ∈ labels → Shape labels ious scores a b c d e f g h i j k l m n o p (.arOverScores (g (lb.1 : Int)) scores ious lb.2)
  | mAROverScores : Shape labels ious scores a b c d e f g h i j k l m n o p (.mAROverScores h scores ious)
  | prCurve {t lb} : lb ∈ labels → Shape labels ious scores a b c d e f g h i j k l m n o p (.prCurve (i t (lb.1 : Int)) (j t (lb.1 : Int)) t lb.2)
  | counts {t s lb} : lb ∈ labels → Shape labels ious scores a b c d e f g h i j k l m n o p
      (.counts (k t s (lb.1 : Int)) (l t s (lb.1 : Int)) (m t s (lb.1 : Int)) lb.2 t s)
  | precision {t s lb} : lb ∈ labels → Shape labels ious scores a b c d e f g h i j k l m n o p (.precision (n t s (lb.1 : Int)) lb.2 t s)
  | recall {t s lb} : lb ∈ labels → Shape labels ious scores a b c d e f g h i j k l m n o p (.recall (o t s (lb.1 : Int)) lb.2 t s)
  | f1 {t s lb} : lb ∈ labels → Shape labels ious scores a b c d e f g h i j k l m n o p (.f1 (p t s (lb.1 : Int)) lb.2 t s)

theorem Shape.fixed {labels ious scores a b c d e f g h i j k l m n o p} (hn : (labels.map Prod.snd).Nodup) {x y : DMetric}
    (hx : Shape labels ious scores a b c d e f g h i j k l m n o p x) (hy : Shape labels ious scores a b c d e f g h i j k l m n o p y)
    (ht : x.type = y.type) (hp : x.parameters = y.parameters) : x = y := by
  have hlb : ∀ lb ∈ labels, ∀ lb' ∈ labels, lb.2 = lb'.2 → lb = lb' := fun lb h lb' h' e => List.inj_on_of_nodup_map hn h h' e
  cases hx <;> cases hy <;> first
    | (exfalso; revert ht; simp only [DMetric.type]; decide)
    | rfl
    | (simp only [DMetric.parameters, List.cons.injEq, Prod.mk.injEq, Param.number.injEq, Param.text.injEq, true_and, and_true] at hp
       first
         | (rw [hp]; done)
         | (have q := hlb _ (by assumption) _ (by assumption) hp; subst q; rfl)
         | (obtain ⟨rfl, q⟩ := hp; have q := hlb _ (by assumption) _ (by assumption) q; subst q; rfl)
         | (obtain ⟨rfl, rfl, q⟩ := hp; have q := hlb _ (by assumption) _ (by assumption) q; subst q; rfl)
         | (obtain ⟨q, rfl, rfl⟩ := hp; have q := hlb _ (by assumption) _ (by assumption) q; subst q; rfl))

theorem entries (tables : List (List Row)) (chunks : List (List RRow)) (labels : List (Nat × String)) (ious scores : List Rat) :
    ∃ a b c d e f g h i j k l m n o p, ∀ x ∈ (expectedReport tables chunks labels ious scores).all,
      Shape labels ious scores a b c d e f g h i j k l m n o p x := by
  refine ⟨fun t l => some (apAt tables chunks t l), fun t => some (mean ((labels.map (fun lb => (lb.1 : Int))).map (apAt tables chunks t))),
    fun l => some (mean (ious.map (fun t => apAt tables chunks t l))),
    some (mean (ious.map (fun t => mean ((labels.map (fun lb => (lb.1 : Int))).map (apAt tables chunks t))))),
    fun s l => some (mean (ious.map (fun t => recallAt tables chunks t s l))),
    fun s => some (mean ((labels.map (fun lb => (lb.1 : Int))).map (fun l => mean (ious.map (fun t => recallAt tables chunks t s l))))),
    fun l => some (mean (scores.map (fun s => mean (ious.map (fun t => recallAt tables chunks t s l))))),
    some (mean (scores.map (fun s => mean ((labels.map (fun lb => (lb.1 : Int))).map (fun l => mean (ious.map (fun t => recallAt tables chunks t s l))))))),
    fun t l => interpolated (curveOf t (gtCount tables l) l chunks).prec, fun t l => interpolated (curveOf t (gtCount tables l) l chunks).score,
    fun t s l => tpTotal t s chunks l, fun t s l => fpTotal t s chunks l, fun t s l => gtCount tables l - tpTotal t s chunks l,
    fun t s l => precisionOf chunks t s l, fun t s l => recallAt tables chunks t s l,
    fun t s l => f1 (precisionOf chunks t s l) (recallAt tables chunks t s l), fun x hx => ?_⟩
  simp only [Report.all, List.mem_append] at hx
  unfold expectedReport at hx
  simp only [List.mem_flatMap, List.mem_map, List.mem_singleton] at hx
  rcases hx with (((((((((((⟨t, _, lb, h1, rfl⟩ | ⟨t, _, rfl⟩) | ⟨lb, h1, rfl⟩) | rfl) | ⟨s, _, lb, h1, rfl⟩) | ⟨s, _, rfl⟩) | ⟨lb, h1, rfl⟩) | rfl) |
    ⟨t, _, lb, h1, rfl⟩) | ⟨lb, h1, s, _, t, _, rfl⟩) | ⟨lb, h1, s, _, t, _, rfl⟩) | ⟨lb, h1, s, _, t, _, rfl⟩) | ⟨lb, h1, s, _, t, _, rfl⟩
  · exact Shape.ap h1
  · exact Shape.mAP
  · exact Shape.apOverIous h1
  · exact Shape.mAPOverIous
  · exact Shape.ar h1
  · exact Shape.mAR
  · exact Shape.arOverScores h1
  · exact Shape.mAROverScores
  · exact Shape.prCurve h1
  · exact Shape.counts h1
  · exact Shape.precision h1
  · exact Shape.recall h1
  · exact Shape.f1 h1

/-- What a caller asks for: one entry for each type, each label and each threshold the type depends on. -/
def requested (names : List String) (ious scores : List Rat) : List (List (String × List (String × Param))) :=
  let pairs := fun (f : String → Rat → Rat → String × List (String × Param)) =>
    names.flatMap (fun n => scores.flatMap (fun s => ious.map (fun t => f n s t)))
  [ious.flatMap (fun t => names.map (fun n => ("AP", [("iou_threshold", .number t), ("label", .text n)]))),
   ious.map (fun t => ("mAP", [("iou_threshold", .number t)])),
   names.map (fun n => ("APAveragedOverIOUs", [("iou_thresholds", .numbers ious), ("label", .text n)])),
   [("mAPAveragedOverIOUs", [("iou_thresholds", .numbers ious)])],
   scores.flatMap (fun s => names.map (fun n => ("AR", [("iou_thresholds", .numbers ious), ("score_threshold", .number s), ("label", .text n)]))),
   scores.map (fun s => ("mAR", [("iou_thresholds", .numbers ious), ("score_threshold", .number s)])),
   names.map (fun n => ("ARAveragedOverScores", [("iou_thresholds", .numbers ious), ("score_thresholds", .numbers scores), ("label", .text n)])),
   [("mARAveragedOverScores", [("iou_thresholds", .numbers ious), ("score_thresholds", .numbers scores)])],
   ious.flatMap (fun t => names.map (fun n => ("PrecisionRecallCurve", [("iou_threshold", .number t), ("label", .text n)]))),
   pairs (fun n s t => ("Counts", [("iou_threshold", .number t), ("score_threshold", .number s), ("label", .text n)])),
   pairs (fun n s t => ("Precision", [("label", .text n), ("iou_threshold", .number t), ("score_threshold", .number s)])),
   pairs (fun n s t => ("Recall", [("label", .text n), ("iou_threshold", .number t), ("score_threshold", .number s)])),
   pairs (fun n s t => ("F1", [("label", .text n), ("iou_threshold", .number t), ("score_threshold", .number s)]))]

theorem keys_report (tables : List (List Row)) (chunks : List (List RRow)) (labels : List (Nat × String)) (ious scores : List Rat) :
    (expectedReport tables chunks labels ious scores).all.map DMetric.key = (requested (labels.map Prod.snd) ious scores).flatten := by
  unfold Report.all expectedReport requested
  simp only [List.map_append, List.map_flatMap, List.map_map, List.flatMap_map, List.map_cons, List.map_nil, List.flatten_cons, List.flatten_nil,
    List.append_nil, List.append_assoc]
  rfl

theorem disjoint_types {α : Type} : ∀ {L : List (List (String × α))} {ts : List String}, List.Forall₂ (fun l t => ∀ x ∈ l, x.1 = t) L ts → ts.Nodup →
    L.Pairwise List.Disjoint
  | [], _, _, _ => List.Pairwise.nil
  | l :: L, _, .cons (b := t) (l₂ := ts) h hs, hn => by
    rw [List.nodup_cons] at hn
    refine List.Pairwise.cons (fun l' hl' x hx hx' => ?_) (disjoint_types hs hn.2)
    obtain ⟨i, hi, rfl⟩ := List.getElem_of_mem hl'
    have hlen := hs.length_eq
    have := (List.forall₂_iff_get.mp hs).2 i hi (by omega) x hx'
    apply hn.1
    rw [← h x hx, this]
    exact List.get_mem _ _

theorem two_nodup {α β γ : Type} {xs : List α} {ys : List β} (hx : xs.Nodup) (hy : ys.Nodup) {f : α → β → γ}
    (hf : ∀ a b a' b', f a b = f a' b' → a = a' ∧ b = b') : (xs.flatMap (fun a => ys.map (f a))).Nodup := by
  rw [List.nodup_flatMap]
  refine ⟨fun a _ => hy.map (fun b b' h => (hf _ _ _ _ h).2), hx.imp ?_⟩
  intro a a' hne z hz hz'
  obtain ⟨b, _, rfl⟩ := List.mem_map.mp hz
  obtain ⟨b', _, h⟩ := List.mem_map.mp hz'
  exact hne (hf _ _ _ _ h).1.symm

theorem three_nodup {α β γ δ : Type} {xs : List α} {ys : List β} {zs : List γ} (hx : xs.Nodup) (hy : ys.Nodup) (hz : zs.Nodup) {f : α → β → γ → δ}
    (hf : ∀ a b c a' b' c', f a b c = f a' b' c' → a = a' ∧ b = b' ∧ c = c') :
    (xs.flatMap (fun a => ys.flatMap (fun b => zs.map (f a b)))).Nodup := by
  rw [List.nodup_flatMap]
  refine ⟨fun a _ => two_nodup hy hz (fun b c b' c' h => (hf _ _ _ _ _ _ h).2), hx.imp ?_⟩
  intro a a' hne w hw hw'
  obtain ⟨b, _, hb⟩ := List.mem_flatMap.mp hw
  obtain ⟨c, _, rfl⟩ := List.mem_map.mp hb
  obtain ⟨b', _, hb'⟩ := List.mem_flatMap.mp hw'
  obtain ⟨c', _, h⟩ := List.mem_map.mp hb'
  exact hne (hf _ _ _ _ _ _ h).1.symm

theorem requested_nodup {names : List String} {ious scores : List Rat} (hn : names.Nodup) (hi : ious.Nodup) (hs : scores.Nodup) :
    (requested names ious scores).flatten.Nodup := by
  rw [List.nodup_flatten]
  constructor
  · unfold requested
    simp only [List.forall_mem_cons, List.not_mem_nil, false_implies, implies_true, and_true]
    refine ⟨two_nodup hi hn ?_, hi.map ?_, hn.map ?_, List.nodup_singleton _, two_nodup hs hn ?_, hs.map ?_, hn.map ?_, List.nodup_singleton _,
      two_nodup hi hn ?_, three_nodup hn hs hi ?_, three_nodup hn hs hi ?_, three_nodup hn hs hi ?_, three_nodup hn hs hi ?_⟩ <;>
    (intros; simp_all [Function.Injective])
  · refine disjoint_types (ts := ["AP", "mAP", "APAveragedOverIOUs", "mAPAveragedOverIOUs", "AR", "mAR", "ARAveragedOverScores",
      "mARAveragedOverScores", "PrecisionRecallCurve", "Counts", "Precision", "Recall", "F1"]) ?_ (by decide)
    unfold requested
    simp only [List.forall₂_cons, List.forall₂_nil_left_iff, List.mem_flatMap, List.mem_map, List.mem_singleton]
    refine ⟨?_, ?_, ?_, ?_, ?_, ?_, ?_, ?_, ?_, ?_, ?_, ?_, ?_, ?_⟩ <;> first | trivial | (rintro x hx; aesop)

/-- **C95 (detection).** In a report of `compute_precision_recall`, type and parameters identify the metric: entries with the same type and the
same parameters have the same value, also when thresholds are requested more than once. The report holds one entry for each
label and each threshold that was asked for and nothing else; if no threshold is repeated then no two entries have the same type and parameters. -/
theorem C95_detection {tables : List (List Row)} (hc : CacheOk tables) {out : List RRow} (h : RankedOf tables out)
    {chunks : List (List RRow)} (hch : chunks.flatten = out) {order : List Rat → List Nat} (ho : IsArgsort order)
    {labels : List (Nat × String)} (hne : labels ≠ []) (hk : (labels.map Prod.fst).Perm (List.range labels.length)) (hn : (labels.map Prod.snd).Nodup)
    (hlab : LabelsBelow labels.length tables.flatten) (hsize : ∀ l, gtCount tables l < 2 ^ 64)
    {ious scores : List Rat} (hi : ious ≠ []) (hs : scores ≠ []) :
    ∃ R, computePrecisionRecall order labels tables chunks ious scores = .ok R ∧
      (∀ m ∈ R.all, ∀ m' ∈ R.all, m.type = m'.type → m.parameters = m'.parameters → m.value = m'.value) ∧
      R.all.map DMetric.key = (requested (labels.map Prod.snd) ious scores).flatten ∧
      (ious.Nodup → scores.Nodup → R.all.Pairwise (fun m m' => m.type = m'.type → m.parameters ≠ m'.parameters)) := by
  refine ⟨_, C60_report hc h hch ho hne hk hlab hsize hi hs, fun x hx y hy ht hp => ?_, keys_report _ _ _ _ _, fun h1 h2 => ?_⟩
  · obtain ⟨a, b, c, d, e, f, g, h, i, j, k, l, m, n, o, p, hall⟩ := entries tables chunks labels ious scores
    rw [(hall x hx).fixed hn (hall y hy) ht hp]
  · have := requested_nodup hn h1 h2
    rw [← keys_report tables chunks labels ious scores, List.Nodup, List.pairwise_map] at this
    exact this.imp (fun hne ht hp => hne (Prod.ext ht hp))

/-- **C95 (values).** What the dictionaries of a report say about a label and a pair of thresholds: the counts under their names, and the
precision, recall, F1 and average precision that belong to these counts and to the curve reported with them. -/
theorem C95_values {tables : List (List Row)} (hc : CacheOk tables) {out : List RRow} (h : RankedOf tables out)
    {chunks : List (List RRow)} (hch : chunks.flatten = out) {order : List Rat → List Nat} (ho : IsArgsort order)
    {labels : List (Nat × String)} (hne : labels ≠ []) (hk : (labels.map Prod.fst).Perm (List.range labels.length))
    (hlab : LabelsBelow labels.length tables.flatten) (hsize : ∀ l, gtCount tables l < 2 ^ 64)
    {ious scores : List Rat} (hi : ious ≠ []) (hs : scores ≠ []) :
    ∃ R, computePrecisionRecall order labels tables chunks ious scores = .ok R ∧
      ∀ lb ∈ labels, ∀ t ∈ ious, ∀ s ∈ scores, ∃ (tp fp fn : Nat) (ps ss : List Rat),
        tp = tpTotal t s chunks lb.1 ∧ fp = fpTotal t s chunks lb.1 ∧ tp + fn = gtCount tables lb.1 ∧
        ("Counts", DValue.integers [("tp", tp), ("fp", fp), ("fn", fn)],
          [("iou_threshold", Param.number t), ("score_threshold", .number s), ("label", .text lb.2)]) ∈ R.all.map DMetric.toDict ∧
        ("Precision", DValue.float (some (precision tp fp)),
          [("label", Param.text lb.2), ("iou_threshold", .number t), ("score_threshold", .number s)]) ∈ R.all.map DMetric.toDict ∧
        ("Recall", DValue.float (some (recall tp (gtCount tables lb.1))),
          [("label", Param.text lb.2), ("iou_threshold", .number t), ("score_threshold", .number s)]) ∈ R.all.map DMetric.toDict ∧
        ("F1", DValue.float (some (f1 (precision tp fp) (recall tp (gtCount tables lb.1)))),
          [("label", Param.text lb.2), ("iou_threshold", .number t), ("score_threshold", .number s)]) ∈ R.all.map DMetric.toDict ∧
        ps = interpolated (curveOf t (gtCount tables lb.1) lb.1 chunks).prec ∧ ss = interpolated (curveOf t (gtCount tables lb.1) lb.1 chunks).score ∧
        ("PrecisionRecallCurve", DValue.lists [("precisions", ps), ("scores", ss)],
          [("iou_threshold", Param.number t), ("label", .text lb.2)]) ∈ R.all.map DMetric.toDict ∧
        ("AP", DValue.float (some (ps.sum / 101)), [("iou_threshold", Param.number t), ("label", .text lb.2)]) ∈ R.all.map DMetric.toDict := by
  refine ⟨_, C60_report hc h hch ho hne hk hlab hsize hi hs, fun lb hlb t ht s hs => ?_⟩
  have per : ∀ (f : Rat → Rat → Int → String → DMetric), f t s (lb.1 : Int) lb.2 ∈
      labels.flatMap (fun lb => scores.flatMap (fun s => ious.map (fun t => f t s (lb.1 : Int) lb.2))) := fun f =>
    List.mem_flatMap.2 ⟨lb, hlb, List.mem_flatMap.2 ⟨s, hs, List.mem_map.2 ⟨t, ht, rfl⟩⟩⟩
  have one : ∀ (f : Rat → Nat × String → DMetric), f t lb ∈ ious.flatMap (fun t => labels.map (fun lb => f t lb)) := fun f =>
    List.mem_flatMap.2 ⟨t, ht, List.mem_map.2 ⟨lb, hlb, rfl⟩⟩
  have hle : tpTotal t s chunks lb.1 ≤ gtCount tables lb.1 := C28_bound hc h t s lb.1 chunks hch
  refine ⟨_, _, gtCount tables lb.1 - tpTotal t s chunks lb.1, _, _, rfl, rfl, by omega, ?_, ?_, ?_, ?_, rfl, rfl, ?_, ?_⟩
  · refine List.mem_map.2 ⟨.counts _ _ _ lb.2 t s, ?_, rfl⟩
    have := per (fun t s l label => .counts (tpTotal t s chunks l) (fpTotal t s chunks l) (gtCount tables l - tpTotal t s chunks l) label t s)
    simp only [Report.all, expectedReport, List.mem_append]
    tauto
  · refine List.mem_map.2 ⟨.precision _ lb.2 t s, ?_, rfl⟩
    have := per (fun t s l label => .precision (precisionOf chunks t s l) label t s)
    simp only [Report.all, expectedReport, List.mem_append]
    tauto
  · refine List.mem_map.2 ⟨.recall _ lb.2 t s, ?_, rfl⟩
    have := per (fun t s l label => .recall (recallAt tables chunks t s l) label t s)
    simp only [Report.all, expectedReport, List.mem_append]
    tauto
  · refine List.mem_map.2 ⟨.f1 _ lb.2 t s, ?_, rfl⟩
    have := per (fun t s l label => .f1 (f1 (precisionOf chunks t s l) (recallAt tables chunks t s l)) label t s)
    simp only [Report.all, expectedReport, List.mem_append]
    tauto
  · refine List.mem_map.2 ⟨.prCurve _ _ t lb.2, ?_, rfl⟩
    have := one (fun t lb => .prCurve (interpolated (curveOf t (gtCount tables (lb.1 : Int)) (lb.1 : Int) chunks).prec)
      (interpolated (curveOf t (gtCount tables (lb.1 : Int)) (lb.1 : Int) chunks).score) t lb.2)
    simp only [Report.all, expectedReport, List.mem_append]
    tauto
  · refine List.mem_map.2 ⟨.ap (some (apAt tables chunks t lb.1)) t lb.2, ?_, ?_⟩
    · have := one (fun t lb => .ap (some (apAt tables chunks t (lb.1 : Int))) t lb.2)
      simp only [Report.all, expectedReport, List.mem_append]
      tauto
    · have : apAt tables chunks t lb.1 = (interpolated (curveOf t (gtCount tables lb.1) lb.1 chunks).prec).sum / 101 := by
        unfold apAt averagePrecision interpolated
        rw [(sweep_spec _ 101 0).2.1]
      rw [← this]
      rfl

/-- The hypotheses hold for the tables of the sample, with a repeated threshold: the entries for it are in the report twice, with equal values. -/
example : ∃ out R, RankedOf sampleTables out ∧
    computePrecisionRecall stableOrder [(1, "b"), (0, "a")] sampleTables [out] [1 / 2, 1 / 2] [1 / 4] = .ok R ∧
    R.all.length = 35 ∧ ∀ m ∈ R.all, ∀ m' ∈ R.all, m.type = m'.type → m.parameters = m'.parameters → m.value = m'.value := by
  obtain ⟨out, _, h⟩ := rankedOf_file sampleTables _ (Verif.Cache.chunksOf_isBatching 3) 10 20
  obtain ⟨R, h1, h2, h3, _⟩ := C95_detection (labels := [(1, "b"), (0, "a")]) (ious := [1 / 2, 1 / 2]) (scores := [1 / 4]) sampleTables_ok h
    (chunks := [out]) (by simp) stableOrder_ok (by simp) (by decide) (by decide) (by decide +kernel) (by
      intro l
      rw [C28_groundtruths sampleTables_ok l]
      refine lt_of_le_of_lt (List.Sublist.length_le (List.dedup_sublist _)) ?_
      rw [List.length_map]
      refine lt_of_le_of_lt (List.length_filter_le _ _) ?_
      decide +kernel) (by simp) (by simp)
  refine ⟨out, R, h, h1, ?_, h2⟩
  have := congrArg List.length h3
  rw [List.length_map] at this
  rw [this]
  decide +kernel

example : (DMetric.ap (some 1) (1 / 2) "a").toDict = ("AP", .float (some 1), [("iou_threshold", .number (1 / 2)), ("label", .text "a")]) := rfl

end Verif.Detection
