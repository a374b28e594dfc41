import Verif.Detection.AddData
import Verif.Detection.IouProps
import Verif.Detection.GeometryProps
import Verif.Detection.LoaderProps
import Mathlib.Dynamics.Ergodic.MeasurePreserving

/-!
# C100: from shapes to overlaps
-/

namespace Verif.Detection

open MeasureTheory

/-! ## Lists of results -/

theorem mapM_forall {α β : Type} {f : α → Except MErr β} {l : List α} {ys : List β} :
    l.mapM f = .ok ys ↔ List.Forall₂ (fun x y => f x = .ok y) l ys := by
  induction l generalizing ys with
  | nil =>
    rw [List.mapM_nil]
    constructor
    · intro h
      cases h
      exact .nil
    · intro h
      cases h
      rfl
  | cons x l ih =>
    rw [List.mapM_cons]
    constructor
    · intro h
      cases hx : f x with
      | error e => rw [hx] at h; cases h
      | ok y =>
        cases hl : l.mapM f with
        | error e => rw [hx, hl] at h; cases h
        | ok zs =>
          rw [hx, hl] at h
          cases h
          exact .cons hx (ih.1 hl)
    · intro h
      cases h with
      | cons h1 h2 =>
        rw [h1, ih.2 h2]
        rfl

theorem mapM_exists {α β : Type} {f : α → Except MErr β} {l : List α} : (∃ ys, l.mapM f = .ok ys) ↔ ∀ x ∈ l, ∃ y, f x = .ok y := by
  constructor
  · rintro ⟨ys, h⟩ x hx
    have := (mapM_forall.1 h)
    obtain ⟨i, hi, rfl⟩ := List.getElem_of_mem hx
    exact ⟨_, (List.forall₂_iff_get.1 this).2 i hi (by rw [← this.length_eq]; exact hi)⟩
  · intro h
    induction l with
    | nil => exact ⟨[], rfl⟩
    | cons x l ih =>
      obtain ⟨y, hy⟩ := h x (by simp)
      obtain ⟨ys, hys⟩ := ih (fun x hx => h x (by simp [hx]))
      exact ⟨y :: ys, mapM_forall.2 (.cons hy (mapM_forall.1 hys))⟩

/-- One result for each pair, in relation `R` to the pair. -/
def Computes {S : Type} (compute : List (S × S) → Except MErr (List Rat)) (R : S × S → Rat → Prop) : Prop :=
  ∀ data xs, compute data = .ok xs → List.Forall₂ R data xs

theorem pairs_length {S : Type} (d : ShapedDet S) : d.pairs.length = d.pds.length * d.gts.length := by
  unfold ShapedDet.pairs
  induction d.pds with
  | nil => simp
  | cons p l ih =>
    rw [List.flatMap_cons, List.length_append, ih, List.length_map, List.length_cons]
    ring

theorem pairs_get {S : Type} (d : ShapedDet S) {p g : Nat} {pa ga : Shaped S} (hp : d.pds[p]? = some pa) (hg : d.gts[g]? = some ga) :
    d.pairs[p * d.gts.length + g]? = some (ga.shape, pa.shape) := by
  unfold ShapedDet.pairs
  generalize d.pds = l at hp
  induction l generalizing p with
  | nil => simp at hp
  | cons x l ih =>
    have hlt := (List.getElem?_eq_some_iff.1 hg).1
    rw [List.flatMap_cons]
    cases p with
    | zero =>
      have : x = pa := by simpa using hp
      subst this
      rw [List.getElem?_append_left (by simpa using hlt)]
      simp [hg]
    | succ p =>
      rw [List.getElem?_append_right (by rw [List.length_map]; nlinarith)]
      have e : (p + 1) * d.gts.length + g - (d.gts.map (fun g => (g.shape, x.shape))).length = p * d.gts.length + g := by
        rw [List.length_map]
        have : (p + 1) * d.gts.length = p * d.gts.length + d.gts.length := by ring
        omega
      rw [e]
      exact ih (by simpa using hp)

/-- The entry of a matrix belongs to its ground truth and its prediction. -/
theorem matrix_entry {S : Type} {compute : List (S × S) → Except MErr (List Rat)} {R : S × S → Rat → Prop} (hc : Computes compute R) {d : ShapedDet S}
    {m : Nat → Nat → Rat} (h : iouMatrix compute d = .ok m) {p g : Nat} {pa ga : Shaped S} (hp : d.pds[p]? = some pa) (hg : d.gts[g]? = some ga) :
    R (ga.shape, pa.shape) (m p g) := by
  unfold iouMatrix at h
  cases hx : compute d.pairs with
  | error e => rw [hx] at h; cases h
  | ok xs =>
    rw [hx] at h
    have hf := hc _ _ hx
    change reshape xs _ _ = _ at h
    unfold reshape at h
    split at h
    · cases h
      have hget := pairs_get d hp hg
      obtain ⟨hi, he⟩ := List.getElem?_eq_some_iff.1 hget
      have hi' : p * d.gts.length + g < xs.length := by rw [← hf.length_eq]; exact hi
      have := (List.forall₂_iff_get.1 hf).2 _ hi hi'
      dsimp only
      rw [List.getD_eq_getElem?_getD, List.getElem?_eq_getElem hi']
      rw [List.get_eq_getElem, he] at this
      exact this
    · cases h

/-- The reshape never raises: there is one result for each pair. -/
theorem matrix_ok {S : Type} {compute : List (S × S) → Except MErr (List Rat)} {R : S × S → Rat → Prop} (hc : Computes compute R) (d : ShapedDet S) :
    (∃ m, iouMatrix compute d = .ok m) ↔ ∃ xs, compute d.pairs = .ok xs := by
  unfold iouMatrix
  constructor
  · rintro ⟨m, h⟩
    cases hx : compute d.pairs with
    | error e => rw [hx] at h; cases h
    | ok xs => exact ⟨xs, rfl⟩
  · rintro ⟨xs, h⟩
    rw [h]
    refine ⟨_, if_pos ?_⟩
    rw [← (hc _ _ h).length_eq, pairs_length]

theorem bbox_computes : Computes computeBboxIou (fun x r => r = bboxIou x.1 x.2) := by
  intro data xs h
  unfold computeBboxIou at h
  split at h
  · next hd =>
    cases h
    rw [List.isEmpty_iff.1 hd]
    exact .nil
  · cases h
    rw [List.forall₂_map_right_iff]
    exact List.forall₂_same.2 (fun _ _ => rfl)

theorem bitmask_computes : Computes computeBitmaskIou (fun x r => x.1.height = x.2.height ∧ x.1.width = x.2.width ∧ r = bitmaskIou x.1.data x.2.data) := by
  intro data xs h
  unfold computeBitmaskIou at h
  split at h
  · cases h
    exact .nil
  · next first rest =>
    split at h
    · next hall =>
      cases h
      rw [List.forall₂_map_right_iff]
      refine List.forall₂_same.2 (fun x hx => ?_)
      have := List.all_eq_true.1 hall x hx
      rw [decide_eq_true_eq] at this
      exact ⟨by rw [this.1, this.2.2.1], by rw [this.2.1, this.2.2.2], rfl⟩
    · cases h

theorem polygon_computes (lib : Shapely) : Computes (computePolygonIou lib) (fun x r => ∃ i u, lib.intersection x.1 x.2 = .ok i ∧
    lib.union x.1 x.2 = .ok u ∧ r = if lib.area u ≥ EPSILON then lib.area i / lib.area u else 0) := by
  intro data xs h
  unfold computePolygonIou at h
  split at h
  · next hd =>
    cases h
    rw [List.isEmpty_iff.1 hd]
    exact .nil
  · cases hi : data.mapM (fun x => lib.intersection x.1 x.2) with
    | error e => rw [hi] at h; cases h
    | ok is =>
      cases hu : data.mapM (fun x => lib.union x.1 x.2) with
      | error e => rw [hi, hu] at h; cases h
      | ok us =>
        rw [hi, hu] at h
        cases h
        have hi := mapM_forall.1 hi
        have hu := mapM_forall.1 hu
        clear * - hi hu
        induction hi generalizing us with
        | nil => cases hu; exact .nil
        | cons h1 _ ih =>
          cases hu with
          | cons h2 h3 => exact .cons ⟨_, _, h1, h2, rfl⟩ (ih _ h3)

theorem polygon_ok (lib : Shapely) (data : List (lib.Polygon × lib.Polygon)) :
    (∃ xs, computePolygonIou lib data = .ok xs) ↔ ∀ x ∈ data, (∃ i, lib.intersection x.1 x.2 = .ok i) ∧ ∃ u, lib.union x.1 x.2 = .ok u := by
  constructor
  · rintro ⟨xs, h⟩ x hx
    obtain ⟨i, hi, rfl⟩ := List.getElem_of_mem hx
    have hf := polygon_computes lib data xs h
    obtain ⟨a, b, h1, h2, _⟩ := (List.forall₂_iff_get.1 hf).2 i hi (by rw [← hf.length_eq]; exact hi)
    exact ⟨⟨a, h1⟩, b, h2⟩
  · intro h
    unfold computePolygonIou
    split
    · exact ⟨_, rfl⟩
    · obtain ⟨is, hi⟩ := mapM_exists.2 (fun x hx => (h x hx).1)
      obtain ⟨us, hu⟩ := mapM_exists.2 (fun x hx => (h x hx).2)
      rw [hi, hu]
      exact ⟨_, rfl⟩

theorem mem_pairs {S : Type} {d : ShapedDet S} {x : S × S} : x ∈ d.pairs ↔ ∃ g ∈ d.gts, ∃ p ∈ d.pds, x = (g.shape, p.shape) := by
  unfold ShapedDet.pairs
  simp only [List.mem_flatMap, List.mem_map]
  constructor
  · rintro ⟨p, hp, g, hg, rfl⟩
    exact ⟨g, hg, p, hp, rfl⟩
  · rintro ⟨g, hg, p, hp, rfl⟩
    exact ⟨p, hp, g, hg, rfl⟩

/-! ## What the loader gets -/

/-- The history that the detections become. -/
structure Becomes {S : Type} (R : S × S → Rat → Prop) (ds : List (ShapedDet S)) (H : History) : Prop where
  dets : H.map Prod.fst = ds.map ShapedDet.det
  ious : ∀ (k : Nat) d x, ds[k]? = some d → H[k]? = some x → ∀ (p g : Nat) pa ga, d.pds[p]? = some pa → d.gts[g]? = some ga → R (ga.shape, pa.shape) (x.2 p g)

theorem becomes {S : Type} {compute : List (S × S) → Except MErr (List Rat)} {R : S × S → Rat → Prop} (hc : Computes compute R) {calls : List History}
    {ds : List (ShapedDet S)} {s : Loader} (h : (Loader.init.addAll calls).addShapes compute ds = .ok s) :
    ∃ H, Becomes R ds H ∧ s = Loader.init.addAll (calls ++ [H]) := by
  unfold Loader.addShapes at h
  cases hm : ds.mapM (iouMatrix compute) with
  | error e => rw [hm] at h; cases h
  | ok ious =>
    rw [hm] at h
    cases h
    have hf := mapM_forall.1 hm
    have hlen := hf.length_eq
    refine ⟨(ds.map ShapedDet.det).zip ious, ⟨?_, ?_⟩, ?_⟩
    · rw [List.map_fst_zip (by simp [hlen])]
    · intro k d x hd hx p g pa ga hp hg
      obtain ⟨hk, rfl⟩ := List.getElem?_eq_some_iff.1 hd
      rw [List.getElem?_zip_eq_some] at hx
      obtain ⟨_, hx⟩ := hx
      obtain ⟨hk', hx⟩ := List.getElem?_eq_some_iff.1 hx
      have := (List.forall₂_iff_get.1 hf).2 k hk hk'
      rw [List.get_eq_getElem, List.get_eq_getElem, hx] at this
      exact matrix_entry hc this hp hg
    · unfold Loader.addAll
      rw [List.foldl_append]
      rfl

theorem addShapes_ok {S : Type} {compute : List (S × S) → Except MErr (List Rat)} {R : S × S → Rat → Prop} (hc : Computes compute R) (s : Loader)
    (ds : List (ShapedDet S)) : (∃ s', s.addShapes compute ds = .ok s') ↔ ∀ d ∈ ds, ∃ xs, compute d.pairs = .ok xs := by
  have : (∃ s', s.addShapes compute ds = .ok s') ↔ ∃ ious, ds.mapM (iouMatrix compute) = .ok ious := by
    unfold Loader.addShapes
    constructor
    · rintro ⟨s', h⟩
      cases hm : ds.mapM (iouMatrix compute) with
      | error e => rw [hm] at h; cases h
      | ok ious => exact ⟨ious, rfl⟩
    · rintro ⟨ious, h⟩
      rw [h]
      exact ⟨_, rfl⟩
  rw [this, mapM_exists]
  exact forall₂_congr (fun d _ => matrix_ok hc d)

/-- Row-level reading: the rows of a detection that was added name a ground truth and a prediction together exactly if their overlap is at least
1e-9, and carry this overlap. -/
theorem rows_of {S : Type} {R : S × S → Rat → Prop} {calls : List History} {ds : List (ShapedDet S)} {H : History} (hH : Becomes R ds H)
    {k : Nat} {d : ShapedDet S} (hd : ds[k]? = some d) (hv : d.det.valid = true) (hpd : ∀ a ∈ d.pds, a.ann.labels ≠ []) (hgt : ∀ a ∈ d.gts, a.ann.labels ≠ [])
    {p g : Nat} {pa ga : Shaped S} (hp : d.pds[p]? = some pa) (hg : d.gts[g]? = some ga) :
    ∃ r rows, R (ga.shape, pa.shape) r ∧ (Loader.init.addAll (calls ++ [H])).rows[calls.flatten.length + k]? = some rows ∧
      ((∃ x ∈ rows, x.row.gt = ((gtOffset (calls.flatten ++ H) (calls.flatten.length + k) + g : Nat) : Int) ∧
        x.row.pd = ((pdOffset (calls.flatten ++ H) (calls.flatten.length + k) + p : Nat) : Int)) ↔ EPSILON ≤ r) ∧
      ∀ x ∈ rows, x.row.gt = ((gtOffset (calls.flatten ++ H) (calls.flatten.length + k) + g : Nat) : Int) →
        x.row.pd = ((pdOffset (calls.flatten ++ H) (calls.flatten.length + k) + p : Nat) : Int) → x.row.iou = r := by
  have hlen : H.length = ds.length := by
    have := congrArg List.length hH.dets
    simpa using this
  obtain ⟨hk, hd'⟩ := List.getElem?_eq_some_iff.1 hd
  obtain ⟨x, hx⟩ : ∃ x, H[k]? = some x := ⟨_, List.getElem?_eq_getElem (by omega)⟩
  have hdet : x.1 = d.det := by
    have := congrArg (fun l => l[k]?) hH.dets
    simp only [List.getElem?_map, hx, hd, Option.map_some, Option.some.injEq] at this
    exact this
  have hR := hH.ious k d x hd hx p g pa ga hp hg
  have hfl : (calls ++ [H]).flatten = calls.flatten ++ H := by simp
  have hat : (calls ++ [H]).flatten[calls.flatten.length + k]? = some x := by
    rw [hfl, List.getElem?_append_right (by omega)]
    simpa using hx
  obtain ⟨rows, h1, h2⟩ := (C34_rows (calls ++ [H])).2.2 _ x hat
  rw [hfl] at h2
  obtain ⟨q1, q2⟩ := C34_pairs (Loader.init.addAll (calls ++ [H])).labels x.1 x.2 (calls.flatten.length + k)
    (gtOffset (calls.flatten ++ H) (calls.flatten.length + k)) (pdOffset (calls.flatten ++ H) (calls.flatten.length + k)) (by rw [hdet]; exact hv)
    (by
      rw [hdet]
      intro a ha
      obtain ⟨b, hb, rfl⟩ := List.mem_map.1 ha
      exact hpd b hb)
    (by
      rw [hdet]
      intro a ha
      obtain ⟨b, hb, rfl⟩ := List.mem_map.1 ha
      exact hgt b hb)
    (g := g) (p := p) (by rw [hdet]; simpa [ShapedDet.det] using (List.getElem?_eq_some_iff.1 hg).1)
    (by rw [hdet]; simpa [ShapedDet.det] using (List.getElem?_eq_some_iff.1 hp).1)
  refine ⟨x.2 p g, rows, hR, h1, ?_, fun y hy => q2 y ((h2 y).1 hy)⟩
  rw [← q1]
  exact exists_congr (fun y => by rw [h2 y])

/-! ## C100 -/

/-- The overlap of two regions of the plane as a user understands it: common area over total area, and 0 if the total area is below 1e-9. -/
def IsOverlap (A B : Set (ℝ × ℝ)) (r : Rat) : Prop :=
  (r : ℝ) = if (EPSILON : ℝ) ≤ volume.real (A ∪ B) then volume.real (A ∩ B) / volume.real (A ∪ B) else 0

/-- What is assumed of shapely: where it does not raise, the areas are exact. `region a` is the set of points of the polygon. -/
structure Shapely.Exact (lib : Shapely) (region : lib.Polygon → Set (ℝ × ℝ)) : Prop where
  measurable : ∀ a, MeasurableSet (region a)
  finite : ∀ a, volume (region a) ≠ ⊤
  intersection : ∀ a b i, lib.intersection a b = .ok i → ((lib.area i : Rat) : ℝ) = volume.real (region a ∩ region b)
  union : ∀ a b u, lib.union a b = .ok u → ((lib.area u : Rat) : ℝ) = volume.real (region a ∪ region b)

theorem polygon_overlap {lib : Shapely} {region : lib.Polygon → Set (ℝ × ℝ)} (hx : lib.Exact region) {a b : lib.Polygon} {i u : lib.Geometry}
    (hi : lib.intersection a b = .ok i) (hu : lib.union a b = .ok u) {r : Rat} (hr : r = if lib.area u ≥ EPSILON then lib.area i / lib.area u else 0) :
    IsOverlap (region a) (region b) r := by
  unfold IsOverlap
  rw [← hx.intersection a b i hi, ← hx.union a b u hu, hr]
  by_cases h : lib.area u ≥ EPSILON
  · rw [if_pos h, if_pos (by exact_mod_cast h)]
    push_cast
    rfl
  · rw [if_neg h, if_neg (by exact_mod_cast h)]
    simp

/-- **C100 (polygons).** `add_polygons` raises exactly if shapely raises for a ground truth and a prediction of the same detection, and then nothing
is added. Otherwise the rows of each detection name a ground truth and a prediction together exactly if the overlap of their regions is at least
1e-9, and carry this overlap. -/
theorem C100_polygons {lib : Shapely} {region : lib.Polygon → Set (ℝ × ℝ)} (hx : lib.Exact region) (calls : List History) (ds : List (ShapedDet lib.Polygon)) :
    ((∃ s, (Loader.init.addAll calls).addPolygons lib ds = .ok s) ↔ ∀ d ∈ ds, ∀ g ∈ d.gts, ∀ p ∈ d.pds,
      (∃ i, lib.intersection g.shape p.shape = .ok i) ∧ ∃ u, lib.union g.shape p.shape = .ok u) ∧
    ∀ s, (Loader.init.addAll calls).addPolygons lib ds = .ok s → ∃ H, s = Loader.init.addAll (calls ++ [H]) ∧ H.map Prod.fst = ds.map ShapedDet.det ∧
      ∀ (k : Nat) d, ds[k]? = some d → d.det.valid = true → (∀ a ∈ d.pds, a.ann.labels ≠ []) → (∀ a ∈ d.gts, a.ann.labels ≠ []) →
      ∀ (p g : Nat) pa ga, d.pds[p]? = some pa → d.gts[g]? = some ga →
      ∃ r rows, IsOverlap (region ga.shape) (region pa.shape) r ∧ s.rows[calls.flatten.length + k]? = some rows ∧
        ((∃ x ∈ rows, x.row.gt = ((gtOffset (calls.flatten ++ H) (calls.flatten.length + k) + g : Nat) : Int) ∧
          x.row.pd = ((pdOffset (calls.flatten ++ H) (calls.flatten.length + k) + p : Nat) : Int)) ↔ EPSILON ≤ r) ∧
        ∀ x ∈ rows, x.row.gt = ((gtOffset (calls.flatten ++ H) (calls.flatten.length + k) + g : Nat) : Int) →
          x.row.pd = ((pdOffset (calls.flatten ++ H) (calls.flatten.length + k) + p : Nat) : Int) → x.row.iou = r := by
  constructor
  · unfold Loader.addPolygons
    rw [addShapes_ok (polygon_computes lib)]
    refine forall₂_congr (fun d _ => ?_)
    rw [polygon_ok]
    constructor
    · intro h g hg p hp
      exact h (g.shape, p.shape) (mem_pairs.2 ⟨g, hg, p, hp, rfl⟩)
    · intro h x hx
      obtain ⟨g, hg, p, hp, rfl⟩ := mem_pairs.1 hx
      exact h g hg p hp
  · intro s hs
    obtain ⟨H, hH, rfl⟩ := becomes (polygon_computes lib) hs
    refine ⟨H, rfl, hH.dets, ?_⟩
    intro k d hd hv hpd hgt p g pa ga hp hg
    obtain ⟨r, rows, ⟨i, u, hi, hu, hr⟩, h2, h3, h4⟩ := rows_of (calls := calls) hH hd hv hpd hgt hp hg
    exact ⟨r, rows, polygon_overlap hx hi hu hr, h2, h3, h4⟩

theorem box_overlap {a b : Box} (ha : a.Proper) (hb : b.Proper) : IsOverlap a.region b.region (bboxIou a b) := by
  unfold IsOverlap
  split
  · next h => exact C24_definition ha hb h
  · next h => rw [C24_tiny ha hb (not_le.1 h)]; simp

/-- **C100 (boxes).** `add_bounding_boxes` never raises here, and the rows carry the overlaps of the boxes. -/
theorem C100_boxes (calls : List History) (ds : List (ShapedDet Box)) :
    ∃ s H, (Loader.init.addAll calls).addBoundingBoxes ds = .ok s ∧ s = Loader.init.addAll (calls ++ [H]) ∧ H.map Prod.fst = ds.map ShapedDet.det ∧
      ∀ (k : Nat) d, ds[k]? = some d → d.det.valid = true → (∀ a ∈ d.pds, a.ann.labels ≠ []) → (∀ a ∈ d.gts, a.ann.labels ≠ []) →
      ∀ (p g : Nat) pa ga, d.pds[p]? = some pa → d.gts[g]? = some ga → pa.shape.Proper → ga.shape.Proper →
      ∃ r rows, IsOverlap ga.shape.region pa.shape.region r ∧ s.rows[calls.flatten.length + k]? = some rows ∧
        ((∃ x ∈ rows, x.row.gt = ((gtOffset (calls.flatten ++ H) (calls.flatten.length + k) + g : Nat) : Int) ∧
          x.row.pd = ((pdOffset (calls.flatten ++ H) (calls.flatten.length + k) + p : Nat) : Int)) ↔ EPSILON ≤ r) ∧
        ∀ x ∈ rows, x.row.gt = ((gtOffset (calls.flatten ++ H) (calls.flatten.length + k) + g : Nat) : Int) →
          x.row.pd = ((pdOffset (calls.flatten ++ H) (calls.flatten.length + k) + p : Nat) : Int) → x.row.iou = r := by
  obtain ⟨s, hs⟩ := (addShapes_ok bbox_computes (Loader.init.addAll calls) ds).2 (by
    intro d _
    unfold computeBboxIou
    split <;> exact ⟨_, rfl⟩)
  obtain ⟨H, hH, rfl⟩ := becomes bbox_computes hs
  refine ⟨_, H, hs, rfl, hH.dets, ?_⟩
  intro k d hd hv hpd hgt p g pa ga hp hg hpp hgp
  obtain ⟨r, rows, hr, h2, h3, h4⟩ := rows_of (calls := calls) hH hd hv hpd hgt hp hg
  exact ⟨r, rows, hr ▸ box_overlap hgp hpp, h2, h3, h4⟩

/-- Same height and width. -/
def Mask.SameShape (a b : Mask) : Prop := a.height = b.height ∧ a.width = b.width

theorem bitmask_ok (d : ShapedDet Mask) : (∃ xs, computeBitmaskIou d.pairs = .ok xs) ↔
    (d.gts ≠ [] → d.pds ≠ [] → ∀ a ∈ d.gts ++ d.pds, ∀ b ∈ d.gts ++ d.pds, a.shape.SameShape b.shape) := by
  constructor
  · rintro ⟨xs, h⟩ hg hp
    obtain ⟨g0, hg0⟩ := List.exists_mem_of_ne_nil _ hg
    obtain ⟨p0, hp0⟩ := List.exists_mem_of_ne_nil _ hp
    have hm : (g0.shape, p0.shape) ∈ d.pairs := mem_pairs.2 ⟨g0, hg0, p0, hp0, rfl⟩
    unfold computeBitmaskIou at h
    split at h
    · next he => rw [he] at hm; cases hm
    · next first rest he =>
      split at h
      · next hall =>
        have key : ∀ a ∈ d.gts ++ d.pds, a.shape.height = first.1.height ∧ a.shape.width = first.1.width := by
          intro a ha
          rcases List.mem_append.1 ha with ha | ha
          · have := List.all_eq_true.1 hall (a.shape, p0.shape) (mem_pairs.2 ⟨a, ha, p0, hp0, rfl⟩)
            rw [decide_eq_true_eq] at this
            exact ⟨this.1, this.2.1⟩
          · have := List.all_eq_true.1 hall (g0.shape, a.shape) (mem_pairs.2 ⟨g0, hg0, a, ha, rfl⟩)
            rw [decide_eq_true_eq] at this
            exact ⟨this.2.2.1, this.2.2.2⟩
        intro a ha b hb
        exact ⟨(key a ha).1.trans (key b hb).1.symm, (key a ha).2.trans (key b hb).2.symm⟩
      · cases h
  · intro h
    unfold computeBitmaskIou
    split
    · exact ⟨_, rfl⟩
    · next first rest he =>
      have hf : first ∈ d.pairs := by rw [he]; simp
      obtain ⟨g0, hg0, p0, hp0, rfl⟩ := mem_pairs.1 hf
      have hs := h (List.ne_nil_of_mem hg0) (List.ne_nil_of_mem hp0)
      rw [if_pos]
      · exact ⟨_, rfl⟩
      · rw [List.all_eq_true]
        intro x hx
        obtain ⟨g, hg, p, hp, rfl⟩ := mem_pairs.1 hx
        rw [decide_eq_true_eq]
        have q1 := hs g (by simp [hg]) g0 (by simp [hg0])
        have q2 := hs p (by simp [hp]) g0 (by simp [hg0])
        exact ⟨q1.1, q1.2, q2.1, q2.2⟩

/-- **C100 (bitmasks).** `add_bitmasks` raises exactly if a detection with ground truths and predictions has masks of different shapes, and then nothing
is added. Otherwise the rows carry, for each ground truth and prediction, the number of common pixels over the number of pixels in at least one. -/
theorem C100_bitmasks (calls : List History) (ds : List (ShapedDet Mask)) :
    ((∃ s, (Loader.init.addAll calls).addBitmasks ds = .ok s) ↔ ∀ d ∈ ds, d.gts ≠ [] → d.pds ≠ [] →
      ∀ a ∈ d.gts ++ d.pds, ∀ b ∈ d.gts ++ d.pds, a.shape.SameShape b.shape) ∧
    ∀ s, (Loader.init.addAll calls).addBitmasks ds = .ok s → ∃ H, s = Loader.init.addAll (calls ++ [H]) ∧ H.map Prod.fst = ds.map ShapedDet.det ∧
      ∀ (k : Nat) d, ds[k]? = some d → d.det.valid = true → (∀ a ∈ d.pds, a.ann.labels ≠ []) → (∀ a ∈ d.gts, a.ann.labels ≠ []) →
      ∀ (p g : Nat) pa ga, d.pds[p]? = some pa → d.gts[g]? = some ga →
      pa.shape.data.length = pa.shape.height * pa.shape.width → ga.shape.data.length = ga.shape.height * ga.shape.width → (pixels ga.shape.data).Nonempty →
      ∃ r rows, r = ((pixels ga.shape.data ∩ pixels pa.shape.data).card : Rat) / ((pixels ga.shape.data ∪ pixels pa.shape.data).card : Rat) ∧
        s.rows[calls.flatten.length + k]? = some rows ∧
        ((∃ x ∈ rows, x.row.gt = ((gtOffset (calls.flatten ++ H) (calls.flatten.length + k) + g : Nat) : Int) ∧
          x.row.pd = ((pdOffset (calls.flatten ++ H) (calls.flatten.length + k) + p : Nat) : Int)) ↔ EPSILON ≤ r) ∧
        ∀ x ∈ rows, x.row.gt = ((gtOffset (calls.flatten ++ H) (calls.flatten.length + k) + g : Nat) : Int) →
          x.row.pd = ((pdOffset (calls.flatten ++ H) (calls.flatten.length + k) + p : Nat) : Int) → x.row.iou = r := by
  constructor
  · unfold Loader.addBitmasks
    rw [addShapes_ok bitmask_computes]
    exact forall₂_congr (fun d _ => bitmask_ok d)
  · intro s hs
    obtain ⟨H, hH, rfl⟩ := becomes bitmask_computes hs
    refine ⟨H, rfl, hH.dets, ?_⟩
    intro k d hd hv hpd hgt p g pa ga hp hg hl1 hl2 hne
    obtain ⟨r, rows, ⟨h0, h1, hr⟩, h2, h3, h4⟩ := rows_of (calls := calls) hH hd hv hpd hgt hp hg
    dsimp only at h0 h1 hr
    refine ⟨r, rows, ?_, h2, h3, h4⟩
    rw [hr]
    exact C25_definition (by rw [hl1, hl2, h0, h1]) (hne.mono Finset.subset_union_left)

/-- **C100 (overlap of regions).** The overlap is between 0 and 1 and does not depend on the order; if the total area is at least 1e-9 it is 0 exactly
if the regions have no area in common, and 1 exactly if they differ by a set without area. -/
theorem C100_overlap {A B : Set (ℝ × ℝ)} (hA : MeasurableSet A) (hB : MeasurableSet B) (fA : volume A ≠ ⊤) (fB : volume B ≠ ⊤) {r : Rat} (h : IsOverlap A B r) :
    0 ≤ r ∧ r ≤ 1 ∧ IsOverlap B A r ∧ ((EPSILON : ℝ) ≤ volume.real (A ∪ B) →
      (r = 0 ↔ volume (A ∩ B) = 0) ∧ (r = 1 ↔ volume (symmDiff A B) = 0)) := by
  have hle : volume.real (A ∩ B) ≤ volume.real (A ∪ B) :=
    measureReal_mono (Set.inter_subset_left.trans Set.subset_union_left) (measure_union_ne_top fA fB)
  have h0 : 0 ≤ volume.real (A ∩ B) := measureReal_nonneg
  have hpos : (0 : ℝ) < (EPSILON : ℝ) := by exact_mod_cast eps_pos
  have hfin : volume (A ∩ B) ≠ ⊤ := ne_top_of_le_ne_top fA (measure_mono Set.inter_subset_left)
  have hfinU : volume (A ∪ B) ≠ ⊤ := measure_union_ne_top fA fB
  refine ⟨?_, ?_, ?_, ?_⟩
  · have : (0 : ℝ) ≤ (r : ℝ) := by
      rw [h]
      split
      · exact div_nonneg h0 (h0.trans hle)
      · exact le_refl _
    exact_mod_cast this
  · have : (r : ℝ) ≤ 1 := by
      rw [h]
      split
      · exact div_le_one_of_le₀ hle (h0.trans hle)
      · exact zero_le_one
    exact_mod_cast this
  · unfold IsOverlap at h ⊢
    rw [Set.union_comm, Set.inter_comm]
    exact h
  · intro hu
    unfold IsOverlap at h
    rw [if_pos hu] at h
    have hup : 0 < volume.real (A ∪ B) := lt_of_lt_of_le hpos hu
    constructor
    · rw [← (Rat.cast_injective (α := ℝ)).eq_iff, h, Rat.cast_zero, div_eq_zero_iff, or_iff_left hup.ne']
      exact measureReal_eq_zero_iff hfin
    · rw [← (Rat.cast_injective (α := ℝ)).eq_iff, h, Rat.cast_one, div_eq_one_iff_eq hup.ne']
      have hd : (A ∪ B) \ (A ∩ B) = symmDiff A B := by
        ext x
        simp only [Set.mem_sdiff, Set.mem_union, Set.mem_inter_iff, Set.mem_symmDiff]
        tauto
      have hsub : volume.real (symmDiff A B) = volume.real (A ∪ B) - volume.real (A ∩ B) := by
        rw [← hd]
        exact measureReal_sdiff (Set.inter_subset_left.trans Set.subset_union_left) (hA.inter hB) hfinU
      have hsf : volume (symmDiff A B) ≠ ⊤ := by
        rw [← hd]
        exact ne_top_of_le_ne_top hfinU (measure_mono Set.sdiff_subset)
      rw [← measureReal_eq_zero_iff hsf, hsub, sub_eq_zero, eq_comm]

/-- **C100 (motions).** Moving both regions by the same area-preserving map (a translation, a rotation, a reflection) does not change the overlap. -/
theorem C100_motion {A B : Set (ℝ × ℝ)} (hA : MeasurableSet A) (hB : MeasurableSet B) {φ : ℝ × ℝ → ℝ × ℝ} (hφ : MeasurePreserving φ volume volume) {r : Rat} :
    IsOverlap (φ ⁻¹' A) (φ ⁻¹' B) r ↔ IsOverlap A B r := by
  unfold IsOverlap
  rw [← Set.preimage_union, ← Set.preimage_inter]
  simp only [Measure.real, hφ.measure_preimage (hA.union hB).nullMeasurableSet, hφ.measure_preimage (hA.inter hB).nullMeasurableSet]
  exact Iff.rfl

/-- **C100 (rectangular polygons).** Boxes given as polygons: `add_polygons` does what `add_bounding_boxes` does. `poly b` is the polygon for box `b`. -/
theorem C100_rectangles {lib : Shapely} {region : lib.Polygon → Set (ℝ × ℝ)} (hx : lib.Exact region) {poly : Box → lib.Polygon}
    (hreg : ∀ b, b.Proper → region (poly b) = b.region)
    (hok : ∀ a b, a.Proper → b.Proper → (∃ i, lib.intersection (poly a) (poly b) = .ok i) ∧ ∃ u, lib.union (poly a) (poly b) = .ok u)
    (s : Loader) (ds : List (ShapedDet Box)) (hp : ∀ d ∈ ds, ∀ x ∈ d.gts ++ d.pds, x.shape.Proper) :
    s.addPolygons lib (ds.map (fun d => ⟨d.uid, d.gts.map (fun x => ⟨x.ann, poly x.shape⟩), d.pds.map (fun x => ⟨x.ann, poly x.shape⟩), d.info⟩))
      = s.addBoundingBoxes ds := by
  have hone : ∀ data : List (Box × Box), (∀ x ∈ data, x.1.Proper ∧ x.2.Proper) →
      computePolygonIou lib (data.map (fun x => (poly x.1, poly x.2))) = computeBboxIou data := by
    intro data hd
    obtain ⟨xs, hxs⟩ := (polygon_ok lib (data.map (fun x => (poly x.1, poly x.2)))).2 (by
      intro y hy
      obtain ⟨x, hx, rfl⟩ := List.mem_map.1 hy
      exact hok x.1 x.2 (hd x hx).1 (hd x hx).2)
    have hf := polygon_computes lib _ _ hxs
    rw [List.forall₂_map_left_iff] at hf
    have he : xs = data.map (fun x => bboxIou x.1 x.2) := by
      clear hxs
      induction hf with
      | nil => rfl
      | @cons x r data xs h1 _ ih =>
        obtain ⟨i, u, hi, hu, hr⟩ := h1
        rw [List.map_cons, ih (fun y hy => hd y (by simp [hy]))]
        congr 1
        obtain ⟨q1, q2⟩ := hd x (by simp)
        have h1 := polygon_overlap hx hi hu hr
        rw [hreg _ q1, hreg _ q2] at h1
        have h2 := box_overlap q1 q2
        unfold IsOverlap at h1 h2
        rw [← h2] at h1
        exact_mod_cast h1
    rw [hxs, he]
    unfold computeBboxIou
    split
    · next hd => rw [List.isEmpty_iff.1 hd]; rfl
    · rfl
  unfold Loader.addPolygons Loader.addBoundingBoxes Loader.addShapes
  have hmat : (ds.map (fun d => (⟨d.uid, d.gts.map (fun x => ⟨x.ann, poly x.shape⟩), d.pds.map (fun x => ⟨x.ann, poly x.shape⟩), d.info⟩ : ShapedDet lib.Polygon))).mapM
      (iouMatrix (computePolygonIou lib)) = ds.mapM (iouMatrix computeBboxIou) := by
    induction ds with
    | nil => rfl
    | cons d ds ih =>
      rw [List.map_cons, List.mapM_cons, List.mapM_cons, ih (fun d hd => hp d (by simp [hd]))]
      congr 1
      unfold iouMatrix
      have hpairs : ShapedDet.pairs (⟨d.uid, d.gts.map (fun x => ⟨x.ann, poly x.shape⟩), d.pds.map (fun x => ⟨x.ann, poly x.shape⟩), d.info⟩ : ShapedDet lib.Polygon)
          = d.pairs.map (fun x => (poly x.1, poly x.2)) := by
        unfold ShapedDet.pairs
        rw [List.map_flatMap, List.flatMap_map]
        simp only [List.map_map]
        rfl
      rw [hpairs, hone]
      · simp only [List.length_map]
      · intro x hx
        obtain ⟨g, hg, p, hp', rfl⟩ := mem_pairs.1 hx
        exact ⟨hp d (by simp) g (by simp [hg]), hp d (by simp) p (by simp [hp'])⟩
  rw [hmat, List.map_map]
  have hdet : ds.map (ShapedDet.det ∘ fun d => (⟨d.uid, d.gts.map (fun x => ⟨x.ann, poly x.shape⟩), d.pds.map (fun x => ⟨x.ann, poly x.shape⟩), d.info⟩ : ShapedDet lib.Polygon))
      = ds.map ShapedDet.det := by
    apply List.map_congr_left
    intro d _
    simp only [Function.comp_apply, ShapedDet.det, List.map_map]
    rfl
  rw [hdet]

/-! ## The hypotheses can be met -/

/-- A library for rectangles only: a geometry is given by its area. Other boxes raise. -/
def rectangles : Shapely := ⟨Box, Rat,
  fun a b => if a.xmin ≤ a.xmax ∧ a.ymin ≤ a.ymax ∧ b.xmin ≤ b.xmax ∧ b.ymin ≤ b.ymax then .ok (interArea a b) else .error .valueError,
  fun a b => if a.xmin ≤ a.xmax ∧ a.ymin ≤ a.ymax ∧ b.xmin ≤ b.xmax ∧ b.ymin ≤ b.ymax then .ok (unionArea a b) else .error .valueError, id⟩

/-- The assumptions on shapely are consistent, and those of `C100_rectangles` hold for it. -/
theorem rectangles_exact : rectangles.Exact Box.region ∧ ∀ a b : Box, a.Proper → b.Proper →
    (∃ i, rectangles.intersection a b = .ok i) ∧ ∃ u, rectangles.union a b = .ok u := by
  refine ⟨⟨region_measurable, region_lt_top, ?_, ?_⟩, ?_⟩
  · intro a b i h
    simp only [rectangles] at h
    split at h
    · cases h
      exact (area_inter a b).symm
    · cases h
  · intro a b i h
    simp only [rectangles] at h
    split at h
    · next hp =>
      cases h
      exact (area_union ⟨hp.1, hp.2.1⟩ ⟨hp.2.2.1, hp.2.2.2⟩).symm
    · cases h
  · intro a b ha hb
    simp only [rectangles]
    rw [if_pos ⟨ha.1, ha.2, hb.1, hb.2⟩, if_pos ⟨ha.1, ha.2, hb.1, hb.2⟩]
    exact ⟨⟨_, rfl⟩, _, rfl⟩

/-- A square and a prediction that covers half of it, and the same with masks of four pixels. -/
example : (∃ s, Loader.init.addBoundingBoxes [⟨"d", [⟨⟨"g", ["cat"], [], ""⟩, ⟨0, 2, 0, 2⟩⟩], [⟨⟨"p", ["cat"], [1], ""⟩, ⟨0, 1, 0, 2⟩⟩], ""⟩] = .ok s ∧
      s.rows.flatten.map (fun r => r.row.iou) = [1 / 2]) ∧
    (∃ s, Loader.init.addBitmasks [⟨"d", [⟨⟨"g", ["cat"], [], ""⟩, ⟨2, 2, [true, true, true, true]⟩⟩],
      [⟨⟨"p", ["cat"], [1], ""⟩, ⟨2, 2, [true, false, true, false]⟩⟩], ""⟩] = .ok s ∧ s.rows.flatten.map (fun r => r.row.iou) = [1 / 2]) := by
  refine ⟨⟨_, rfl, ?_⟩, ⟨_, rfl, ?_⟩⟩ <;> decide +kernel

/-- Translations preserve areas. -/
example (v : ℝ × ℝ) : MeasurePreserving (fun x : ℝ × ℝ => v + x) volume volume :=
  (measurePreserving_add_left (volume : Measure ℝ) v.1).prod (measurePreserving_add_left (volume : Measure ℝ) v.2)

end Verif.Detection
