import Verif.Segmentation.Construct
import Verif.Segmentation.LoaderProps
import Verif.Segmentation.MaskProps

/-!
# What a loader holds after a program of constructions and additions

* `C102_independent`: if no two segmentations of the program share an array, then it does not matter when they are
  constructed and added.
* `C102_pixels`: if the masks of each segmentation are disjoint, arrays may be shared at will, and the confusion matrix counts
  the pixels of the arrays that the caller made.
* `C102_violation`: otherwise a later construction changes the pixels of an earlier segmentation.
-/

namespace Verif.Segmentation

/-! ## Specification -/

/-- The arrays of a segmentation. -/
def Args.addrs (a : Args) : List Nat := (a.gts ++ a.pds).map Bitmask.addr

/-- The constructions of a program. -/
def makes : List Stmt → List Args
  | [] => []
  | .make a :: prog => a :: makes prog
  | .add _ :: prog => makes prog

/-- The calls of `add_data` of a program, where `f` says what becomes of a construction. -/
def added {α : Type} (f : Args → Option α) : List (Option α) → List Stmt → List (List α)
  | _, [] => []
  | made, .make a :: prog => added f (made ++ [f a]) prog
  | made, .add is :: prog => is.filterMap (fun i => (made[i]?).join) :: added f made prog

/-- Number of pixels of an image. -/
def area : List Int → Nat
  | [r, c] => r.toNat * c.toNat
  | _ => 0

/-- The label of the first bitmask whose array has pixel `x`. -/
def bitmaskAt (h : Heap) (bs : List Bitmask) (x : Nat) : Option String := (bs.find? (fun b => bit (h b.addr).data x)).map Bitmask.label

/-- Number of pixels of the caller's arrays with the given ground truth and prediction (`none` is background). -/
def arrayPixels (h : Heap) (l m : Option String) (a : Args) : Nat :=
  (List.range (area a.shape)).countP (fun x => decide (bitmaskAt h a.gts x = l ∧ bitmaskAt h a.pds x = m))

/-- One side of an image: arrays of its shape without common pixels, with distinct labels. Bitmasks may use the same array if
it is empty. -/
structure CleanSide (h : Heap) (shape : List Nat) (bs : List Bitmask) : Prop where
  shapes : ShapesOk shape h bs
  disjoint : Disjoint (masks h bs)
  labels : (bs.map Bitmask.label).Nodup

/-- A two-dimensional image whose two sides are clean. The two sides may use the same arrays. -/
structure Clean (h : Heap) (a : Args) : Prop where
  shape : ∃ r c : Int, a.shape = [r, c] ∧ 0 < r ∧ 0 < c
  gts : CleanSide h (a.shape.map Int.toNat) a.gts
  pds : CleanSide h (a.shape.map Int.toNat) a.pds

/-! ## The constructor and the rest of the heap -/

/-- The loop reads and writes the arrays of its bitmasks only. -/
theorem validateLoop_frame (s : List Nat) (bs : List Bitmask) (S : Nat → Prop) (hS : ∀ b ∈ bs, S b.addr) (h h' : Heap) (acc : Acc)
    (he : ∀ a, S a → h a = h' a) :
    (validateLoop s h acc bs).2 = (validateLoop s h' acc bs).2 ∧
    (∀ a, S a → (validateLoop s h acc bs).1 a = (validateLoop s h' acc bs).1 a) ∧
    ∀ a, ¬ S a → (validateLoop s h acc bs).1 a = h a := by
  induction bs generalizing h h' acc with
  | nil => exact ⟨rfl, he, fun _ _ => rfl⟩
  | cons b bs ih =>
    have hb := he b.addr (hS b (by simp))
    have ih := ih (fun c hc => hS c (by simp [hc]))
    unfold validateLoop
    rw [hb]
    by_cases hsh : (h' b.addr).shape = s
    · rw [if_neg (by simpa using hsh), if_neg (by simpa using hsh)]
      rcases acc with _ | ⟨p, q⟩
      · exact ih h h' _ he
      · dsimp only
        split
        · generalize hv : ({ (h' b.addr) with data := maskClear (h' b.addr).data (maskAnd p (h' b.addr).data) } : Arr) = v
          obtain ⟨i1, i2, i3⟩ := ih (Function.update h b.addr v) (Function.update h' b.addr v)
            (some (p, maskOr q (maskAnd p (h' b.addr).data))) (by
              intro a ha
              by_cases hab : a = b.addr
              · subst hab
                rw [Function.update_self, Function.update_self]
              · rw [Function.update_of_ne hab, Function.update_of_ne hab]
                exact he a ha)
          refine ⟨i1, i2, fun a ha => ?_⟩
          rw [i3 a ha, Function.update_of_ne]
          rintro rfl
          exact ha (hS b (by simp))
        · exact ih h h' _ he
    · rw [if_pos hsh, if_pos hsh]
      exact ⟨rfl, he, fun _ _ => rfl⟩

theorem validate_frame (s : List Nat) (bs : List Bitmask) (S : Nat → Prop) (hS : ∀ b ∈ bs, S b.addr) (h h' : Heap)
    (he : ∀ a, S a → h a = h' a) :
    (validate s h bs).2 = (validate s h' bs).2 ∧ (∀ a, S a → (validate s h bs).1 a = (validate s h' bs).1 a) ∧
    ∀ a, ¬ S a → (validate s h bs).1 a = h a := by
  obtain ⟨h1, h2, h3⟩ := validateLoop_frame s bs S hS h h' none he
  refine ⟨?_, h2, h3⟩
  unfold validate
  dsimp only
  rw [h1]

theorem postInit_frame (shape : List Int) (gts pds : List Bitmask) (S : Nat → Prop) (hS : ∀ b ∈ gts ++ pds, S b.addr) (h h' : Heap)
    (he : ∀ a, S a → h a = h' a) :
    (postInit shape h gts pds).2 = (postInit shape h' gts pds).2 ∧
    (∀ a, S a → (postInit shape h gts pds).1 a = (postInit shape h' gts pds).1 a) ∧
    ∀ a, ¬ S a → (postInit shape h gts pds).1 a = h a := by
  rcases shape with _ | ⟨r, _ | ⟨c, _ | ⟨d, rest⟩⟩⟩
  · exact ⟨rfl, he, fun _ _ => rfl⟩
  · exact ⟨rfl, he, fun _ _ => rfl⟩
  · unfold postInit
    dsimp only
    by_cases hpos : r ≤ 0 ∨ c ≤ 0
    · rw [if_pos hpos, if_pos hpos]
      exact ⟨rfl, he, fun _ _ => rfl⟩
    · rw [if_neg hpos, if_neg hpos]
      obtain ⟨g1, g2, g3⟩ := validate_frame [r.toNat, c.toNat] gts S (fun b hb => hS b (by simp [hb])) h h' he
      obtain ⟨p1, p2, p3⟩ := validate_frame [r.toNat, c.toNat] pds S (fun b hb => hS b (by simp [hb])) _ _ g2
      rw [g1]
      rcases (validate [r.toNat, c.toNat] h' gts).2 with e | w
      · exact ⟨rfl, g2, g3⟩
      · exact ⟨by dsimp only; rw [p1], p2, fun a ha => (p3 a ha).trans (g3 a ha)⟩
  · exact ⟨rfl, he, fun _ _ => rfl⟩

/-- The segmentation that the constructor makes on its own, from the arrays `h`. -/
def alone (h : Heap) (a : Args) : Option Seg := (segOf a.uid a.shape h a.gts a.pds a.info).toOption

theorem read_congr {h h' : Heap} {o : Obj} (he : ∀ b ∈ o.gts ++ o.pds, h b.addr = h' b.addr) : o.read h = o.read h' := by
  unfold Obj.read
  congr 1
  · refine List.map_congr_left (fun b hb => ?_)
    rw [he b (by simp [hb])]
  · refine List.map_congr_left (fun b hb => ?_)
    rw [he b (by simp [hb])]

theorem alone_eq (h : Heap) (a : Args) : alone h a = ((construct h a).2.toOption).map (Obj.read (construct h a).1) := by
  unfold alone segOf construct
  dsimp only
  rcases (postInit a.shape h a.gts a.pds).2 with e | w <;> rfl

theorem construct_addrs {h : Heap} {a : Args} {o : Obj} (ho : (construct h a).2.toOption = some o) : o.gts = a.gts ∧ o.pds = a.pds := by
  unfold construct at ho
  dsimp only at ho
  rcases e : (postInit a.shape h a.gts a.pds).2 with x | w
  · rw [e] at ho
    cases ho
  · rw [e] at ho
    cases ho
    exact ⟨rfl, rfl⟩

/-- What holds between the statements: later constructions find their arrays as they were, and earlier segmentations read as
they did when they were made. -/
theorem exec_invariant (h : Heap) (prog : List Stmt) (w : World) (segs : List (Option Seg))
    (hm : w.made.map (fun o => o.map (Obj.read w.heap)) = segs)
    (hno : ∀ o ∈ w.made, ∀ o' ∈ o, ∀ b ∈ o'.gts ++ o'.pds, ∀ a ∈ makes prog, b.addr ∉ a.addrs)
    (hh : ∀ a ∈ makes prog, ∀ x ∈ a.addrs, w.heap x = h x)
    (hp : (makes prog).Pairwise (fun a b => ∀ x ∈ a.addrs, x ∉ b.addrs)) :
    (prog.foldl World.exec w).loader = w.loader.addAll (added (alone h) segs prog) := by
  induction prog generalizing w segs with
  | nil => rfl
  | cons st prog ih =>
    cases st with
    | make a =>
      rw [List.foldl_cons]
      unfold makes at hno hh hp
      rw [List.pairwise_cons] at hp
      have hfr := postInit_frame a.shape a.gts a.pds (fun x => x ∈ a.addrs) (fun b hb => List.mem_map_of_mem hb) w.heap h
        (fun x hx => hh a (by simp) x hx)
      have hread : ((construct w.heap a).2.toOption).map (Obj.read (construct w.heap a).1) = alone h a := by
        rw [alone_eq]
        have h2 : (construct w.heap a).2 = (construct h a).2 := by
          unfold construct
          dsimp only
          rw [hfr.1]
        rw [h2]
        rcases ho : (construct h a).2.toOption with _ | o
        · rfl
        · rw [Option.map_some, Option.map_some]
          congr 1
          obtain ⟨e1, e2⟩ := construct_addrs ho
          refine read_congr (fun b hb => hfr.2.1 b.addr ?_)
          rw [e1, e2] at hb
          exact List.mem_map_of_mem hb
      have := ih (w.exec (.make a)) (segs ++ [alone h a]) ?_ ?_ ?_ hp.2
      · rw [this]
        rfl
      · show (w.made ++ [_]).map _ = _
        rw [List.map_append, List.map_singleton]
        congr 1
        · rw [← hm]
          refine List.map_congr_left (fun o ho => ?_)
          rcases o with _ | o
          · rfl
          · rw [Option.map_some, Option.map_some]
            congr 1
            exact read_congr (fun b hb => hfr.2.2 b.addr (hno _ ho o rfl b hb a (by simp)))
        · exact congrArg (fun z => [z]) hread
      · intro o ho o' ho' b hb a' ha'
        rcases List.mem_append.1 ho with ho | ho
        · exact hno o ho o' ho' b hb a' (by simp [ha'])
        · rw [List.mem_singleton] at ho
          subst ho
          obtain ⟨e1, e2⟩ := construct_addrs ho'
          rw [e1, e2] at hb
          exact hp.1 a' ha' b.addr (List.mem_map_of_mem hb)
      · intro a' ha' x hx
        rw [← hh a' (by simp [ha']) x hx]
        exact hfr.2.2 x (fun hxa => hp.1 a' ha' x hxa hx)
    | add is =>
      rw [List.foldl_cons]
      unfold makes at hno hh hp
      have hloader : (w.exec (.add is)).loader = w.loader.addData (is.filterMap (fun i => (segs[i]?).join)) := by
        show w.loader.addData _ = _
        congr 1
        rw [List.map_filterMap]
        refine List.filterMap_congr (fun i _ => ?_)
        rw [← hm, List.getElem?_map]
        rcases w.made[i]? with _ | _ | o <;> rfl
      rw [ih (w.exec (.add is)) segs hm hno hh hp, hloader]
      rfl

/-- **C102 (own arrays).** For every program of constructions and additions in which no two segmentations use the same array:
the loader holds what each construction makes of its own arrays, at whatever time the segmentations are constructed and
added, and whatever the constructor writes to the arrays. -/
theorem C102_independent (h : Heap) (prog : List Stmt) (hp : (makes prog).Pairwise (fun a b => ∀ x ∈ a.addrs, x ∉ b.addrs)) :
    (execAll h prog).loader = Loader.init.addAll (added (alone h) [] prog) :=
  exec_invariant h prog ⟨h, [], Loader.init⟩ [] rfl (by simp) (fun _ _ _ _ => rfl) hp

/-! ## Clean images -/

theorem validateLoop_clean (s : List Nat) (bs : List Bitmask) (h : Heap) (hs : ShapesOk s h bs) (hd : Disjoint (masks h bs))
    (acc o : Mask) (ha : acc.length = s.prod) (hap : ∀ b ∈ bs, Apart acc (h b.addr).data) :
    ∃ v, validateLoop s h (some (acc, o)) bs = (h, .ok v) := by
  induction bs generalizing acc with
  | nil => exact ⟨_, rfl⟩
  | cons b bs ih =>
    have hb := hs b (by simp)
    unfold Disjoint at hd
    have hmc : masks h (b :: bs) = (h b.addr).data :: masks h bs := rfl
    rw [hmc, List.pairwise_cons] at hd
    unfold validateLoop
    rw [if_neg (by simpa using hb.1)]
    have hany : ¬ maskAny (maskAnd acc (h b.addr).data) = true := by
      intro hc
      obtain ⟨x, hx⟩ := maskAny_iff.1 hc
      unfold maskAnd at hx
      rw [bit_zipWith rfl (by rw [ha, hb.2]), Bool.and_eq_true] at hx
      exact hap b (by simp) x hx
    dsimp only
    rw [if_neg hany]
    refine ih (fun c hc => hs c (by simp [hc])) hd.2 _ (by unfold maskOr; rw [List.length_zipWith, ha, hb.2, Nat.min_self]) ?_
    intro c hc x hx
    unfold maskOr at hx
    rw [bit_zipWith rfl (by rw [ha, hb.2]), Bool.or_eq_true] at hx
    rcases hx with ⟨hx | hx, hy⟩
    · exact hap c (by simp [hc]) x ⟨hx, hy⟩
    · exact hd.1 _ (List.mem_map_of_mem (f := fun b : Bitmask => (h b.addr).data) hc) x ⟨hx, hy⟩

theorem validate_clean {s : List Nat} {bs : List Bitmask} {h : Heap} (hc : CleanSide h s bs) : ∃ v, validate s h bs = (h, .ok v) := by
  rcases bs with _ | ⟨b, bs⟩
  · exact ⟨_, rfl⟩
  · have hb := hc.shapes b (by simp)
    have hd := hc.disjoint
    unfold Disjoint at hd
    have hmc : masks h (b :: bs) = (h b.addr).data :: masks h bs := rfl
    rw [hmc, List.pairwise_cons] at hd
    obtain ⟨v, hv⟩ := validateLoop_clean s bs h (fun c hcm => hc.shapes c (by simp [hcm])) hd.2 (h b.addr).data
      (List.replicate (h b.addr).data.length false) hb.2
      (fun c hcm => hd.1 _ (List.mem_map_of_mem (f := fun b : Bitmask => (h b.addr).data) hcm))
    refine ⟨warning v, ?_⟩
    have hl : validateLoop s h none (b :: bs) = (h, .ok v) := by
      unfold validateLoop
      rw [if_neg (by simpa using hb.1)]
      exact hv
    unfold validate
    dsimp only
    rw [hl]
    rfl

/-- The constructor leaves clean arrays alone. -/
theorem construct_clean {h : Heap} {a : Args} (hc : Clean h a) :
    construct h a = (h, .ok ⟨a.uid, sizeOf2 a.shape, a.gts, a.pds, a.info⟩) := by
  obtain ⟨r, c, hs, hr, hc'⟩ := hc.shape
  have e : a.shape.map Int.toNat = [r.toNat, c.toNat] := by rw [hs]; rfl
  have h1 := hc.gts
  have h2 := hc.pds
  rw [e] at h1 h2
  obtain ⟨v, hv⟩ := validate_clean h1
  obtain ⟨u, hu⟩ := validate_clean h2
  unfold construct postInit
  rw [hs]
  dsimp only
  rw [if_neg (by omega), hv]
  dsimp only
  rw [hu]
  rfl

theorem read_ok {h : Heap} {a : Args} (hc : Clean h a) : SegOk (Obj.read h ⟨a.uid, sizeOf2 a.shape, a.gts, a.pds, a.info⟩) := by
  have side : ∀ bs, CleanSide h (a.shape.map Int.toNat) bs →
      ItemsOk (sizeOf2 a.shape) (bs.map (fun b => (⟨(h b.addr).data, b.label, b.info⟩ : Item))) := by
    intro bs hb
    refine ⟨?_, ?_, ?_⟩
    · intro x hx
      obtain ⟨b, hbm, rfl⟩ := List.mem_map.1 hx
      exact (hb.shapes b hbm).2
    · rw [List.map_map]
      exact hb.disjoint
    · rw [List.map_map]
      exact hb.labels
  exact ⟨side _ hc.gts, side _ hc.pds⟩

theorem itemAt_map (h : Heap) (bs : List Bitmask) (x : Nat) :
    itemAt (bs.map (fun b => (⟨(h b.addr).data, b.label, b.info⟩ : Item))) x = bitmaskAt h bs x := by
  unfold itemAt bitmaskAt
  rw [List.find?_map, Option.map_map]
  rfl

theorem size_area {shape : List Int} (h : ∃ r c : Int, shape = [r, c] ∧ 0 < r ∧ 0 < c) : sizeOf2 shape = area shape := by
  obtain ⟨r, c, rfl, _, _⟩ := h
  simp [sizeOf2, area]

theorem pixelsOf_read {h : Heap} {a : Args} (hc : Clean h a) (l m : Option String) :
    pixelsOf (Obj.read h ⟨a.uid, sizeOf2 a.shape, a.gts, a.pds, a.info⟩) l m = arrayPixels h l m a := by
  unfold pixelsOf arrayPixels Obj.read
  dsimp only
  rw [size_area hc.shape]
  simp only [itemAt_map]

theorem exec_clean (h : Heap) (prog : List Stmt) (hc : ∀ a ∈ makes prog, Clean h a) (w : World) (args : List (Option Args)) (hw : w.heap = h)
    (hm : w.made = args.map (fun o => o.map (fun a => (⟨a.uid, sizeOf2 a.shape, a.gts, a.pds, a.info⟩ : Obj)))) :
    (prog.foldl World.exec w).heap = h ∧
    (prog.foldl World.exec w).loader = w.loader.addAll ((added some args prog).map
      (fun call => call.map (fun a => Obj.read h ⟨a.uid, sizeOf2 a.shape, a.gts, a.pds, a.info⟩))) := by
  induction prog generalizing w args with
  | nil => exact ⟨hw, rfl⟩
  | cons st prog ih =>
    cases st with
    | make a =>
      rw [List.foldl_cons]
      unfold makes at hc
      have hcon := construct_clean (hc a (by simp))
      rw [← hw] at hcon
      have := ih (fun b hb => hc b (by simp [hb])) (w.exec (.make a)) (args ++ [some a])
        (by unfold World.exec; dsimp only; rw [hcon]; exact hw)
        (by unfold World.exec; dsimp only; rw [hcon, hm, List.map_append]; rfl)
      exact this
    | add is =>
      rw [List.foldl_cons]
      unfold makes at hc
      have hloader : (w.exec (.add is)).loader = w.loader.addData ((is.filterMap (fun i => (args[i]?).join)).map
          (fun a => Obj.read h ⟨a.uid, sizeOf2 a.shape, a.gts, a.pds, a.info⟩)) := by
        show w.loader.addData _ = _
        congr 1
        rw [hw, List.map_filterMap, List.map_filterMap]
        refine List.filterMap_congr (fun i _ => ?_)
        rw [hm, List.getElem?_map]
        rcases args[i]? with _ | _ | a <;> rfl
      obtain ⟨g1, g2⟩ := ih hc (w.exec (.add is)) args hw hm
      refine ⟨g1, ?_⟩
      rw [g2, hloader]
      rfl

theorem added_mem {prog : List Stmt} {args : List (Option Args)} {call : List Args} (hcall : call ∈ added some args prog) {a : Args} (ha : a ∈ call) :
    some a ∈ args ∨ a ∈ makes prog := by
  induction prog generalizing args with
  | nil => cases hcall
  | cons st prog ih =>
    cases st with
    | make b =>
      rcases ih (args := args ++ [some b]) hcall with h | h
      · rcases List.mem_append.1 h with h | h
        · exact Or.inl h
        · rw [List.mem_singleton] at h
          cases h
          exact Or.inr (by simp [makes])
      · exact Or.inr (by simp [makes, h])
    | add is =>
      unfold added at hcall
      rcases List.mem_cons.1 hcall with rfl | h
      · obtain ⟨i, _, hi⟩ := List.mem_filterMap.1 ha
        refine Or.inl ?_
        rcases e : args[i]? with _ | o
        · rw [e] at hi
          cases hi
        · rw [e] at hi
          have : o = some a := hi
          subst this
          exact List.mem_of_getElem? e
      · exact ih h

/-- **C102 (clean images).** For every program of constructions and additions whose images are clean, with arrays shared between
images, between the two sides of an image or, if empty, within one side: no array of the caller is changed, and for every
division and order of the stored rows the confusion matrix counts the pixels of the caller's arrays, for each time a
segmentation is added. -/
theorem C102_pixels (h : Heap) (prog : List Stmt) (hc : ∀ a ∈ makes prog, Clean h a)
    (hs : ((added some [] prog).flatten.map (fun a => area a.shape)).sum < 2 ^ 64) {tables : List (List SRow)}
    (hp : tables.flatten.Perm (execAll h prog).loader.rows.flatten) {l m : Option String}
    (hl : ∀ v ∈ l, v ∈ (execAll h prog).loader.labels) (hm : ∀ v ∈ m, v ∈ (execAll h prog).loader.labels) :
    (execAll h prog).heap = h ∧
    confusionMatrix (execAll h prog).loader.labels.length none tables
        (scode (execAll h prog).loader.labels l) (scode (execAll h prog).loader.labels m)
      = ((added some [] prog).flatten.map (arrayPixels h l m)).sum := by
  obtain ⟨h1, h2⟩ := exec_clean h prog hc ⟨h, [], Loader.init⟩ [] rfl rfl
  refine ⟨h1, ?_⟩
  change (execAll h prog).loader = _ at h2
  rw [h2] at hp hl hm ⊢
  have hcl : ∀ a ∈ (added some [] prog).flatten, Clean h a := by
    intro a ha
    obtain ⟨call, hcall, ha⟩ := List.mem_flatten.1 ha
    rcases added_mem hcall ha with hh | hh
    · cases hh
    · exact hc a hh
  have hflat : ((added some [] prog).map (fun call => call.map (fun a => Obj.read h ⟨a.uid, sizeOf2 a.shape, a.gts, a.pds, a.info⟩))).flatten
      = (added some [] prog).flatten.map (fun a => Obj.read h ⟨a.uid, sizeOf2 a.shape, a.gts, a.pds, a.info⟩) := by
    rw [List.map_flatten]
  refine (C38_matrix _ ?_ ?_ hp hl hm).trans ?_
  · rw [hflat]
    intro s hsm
    obtain ⟨a, ha, rfl⟩ := List.mem_map.1 hsm
    exact read_ok (hcl a ha)
  · rw [hflat, List.map_map]
    convert hs using 2
    refine List.map_congr_left (fun a ha => ?_)
    exact size_area (hcl a ha).shape
  · rw [hflat, List.map_map]
    congr 1
    exact List.map_congr_left (fun a ha => pixelsOf_read (hcl a ha) l m)

/-! ## Witnesses -/

/-- Two arrays of two pixels; both hold the first pixel. -/
def pairHeap : Heap := fun a => ⟨[1, 2], if a = 0 then [true, false] else [true, true]⟩

/-- An image with one ground truth mask that uses array 1. -/
def firstArgs : Args := ⟨"a", [1, 2], [⟨1, "x", none⟩], [], none⟩

/-- A second image whose two masks overlap; the second of them uses array 1 as well. -/
def secondArgs : Args := ⟨"b", [1, 2], [⟨0, "x", none⟩, ⟨1, "y", none⟩], [], none⟩

/-- **C102, violation.** Both constructors accept. The first image has two pixels of its label if it is added before the second
image is constructed, and one if it is added afterwards: the second construction cleared a pixel of the array that both
use. -/
theorem C102_violation :
    confusionMatrix 1 none (execAll pairHeap [.make firstArgs, .add [0], .make secondArgs]).loader.rows 1 0 = 2 ∧
    confusionMatrix 1 none (execAll pairHeap [.make firstArgs, .make secondArgs, .add [0]]).loader.rows 1 0 = 1 ∧
    (execAll pairHeap [.make firstArgs, .make secondArgs]).made.all Option.isSome = true ∧
    (execAll pairHeap [.make firstArgs, .make secondArgs]).heap 1 ≠ pairHeap 1 := by decide +kernel

/-- The hypotheses of `C102_pixels` are met: array 0 is used by both sides of an image and by another image. -/
example : let prog : List Stmt := [.make ⟨"a", [1, 2], [⟨0, "x", none⟩], [⟨0, "x", none⟩], none⟩, .make ⟨"b", [1, 2], [⟨0, "y", none⟩], [], none⟩, .add [1, 0]]
    (∀ a ∈ makes prog, Clean pairHeap a) ∧ (execAll pairHeap prog).loader.labels = ["y", "x"] ∧
    ((added some [] prog).flatten.map (arrayPixels pairHeap (some "x") (some "x"))).sum = 1 := by
  refine ⟨?_, by decide +kernel, by decide +kernel⟩
  intro a ha
  simp only [makes, List.mem_cons, List.not_mem_nil, or_false] at ha
  rcases ha with rfl | rfl
  · exact ⟨⟨1, 2, rfl, by decide, by decide⟩, ⟨by unfold ShapesOk; decide +kernel, by simp [Disjoint, masks], by decide⟩,
      ⟨by unfold ShapesOk; decide +kernel, by simp [Disjoint, masks], by decide⟩⟩
  · exact ⟨⟨1, 2, rfl, by decide, by decide⟩, ⟨by unfold ShapesOk; decide +kernel, by simp [Disjoint, masks], by decide⟩,
      ⟨by unfold ShapesOk; decide +kernel, by simp [Disjoint, masks], by decide⟩⟩

/-- The hypothesis of `C102_independent` is met by images with overlapping masks in arrays of their own. -/
example : (makes [.make secondArgs, .make ⟨"c", [1, 2], [⟨2, "x", none⟩, ⟨3, "y", none⟩], [], none⟩, .add [1, 0]]).Pairwise
    (fun a b => ∀ x ∈ a.addrs, x ∉ b.addrs) := by decide +kernel

end Verif.Segmentation
