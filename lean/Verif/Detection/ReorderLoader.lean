import Verif.Detection.Reorder
import Verif.Detection.DivisionEndToEnd
import Verif.Detection.InfoProps

/-!
# Loading the same detections in another order

Lemmas for C75: the rows of two loaders that got the same detections in different orders are related by a renaming.
-/

namespace Verif.Detection

open Verif.Cache (sortBy)

/-- A permutation as a map of positions. -/
theorem perm_index {α : Type} {a b : List α} (h : a.Perm b) : ∃ σ : Nat → Nat,
    (∀ i < a.length, ∀ j < a.length, σ i = σ j → i = j) ∧ ∀ i < a.length, σ i < b.length ∧ b[σ i]? = a[i]? := by
  induction h with
  | nil => exact ⟨id, by simp, by simp⟩
  | @cons x l m _ ih =>
    obtain ⟨σ, h1, h2⟩ := ih
    refine ⟨fun i => match i with | 0 => 0 | i + 1 => σ i + 1, ?_, ?_⟩
    · intro i hi j hj he
      cases i <;> cases j
      · rfl
      · simp at he
      · simp at he
      · rename_i i j
        simp only [List.length_cons] at hi hj
        have := h1 i (by omega) j (by omega) (by simpa using he)
        omega
    · intro i hi
      cases i with
      | zero => simp
      | succ i =>
        simp only [List.length_cons] at hi
        have := h2 i (by omega)
        simp only [List.length_cons, List.getElem?_cons_succ]
        exact ⟨by omega, this.2⟩
  | swap x y l =>
    refine ⟨fun i => match i with | 0 => 1 | 1 => 0 | i + 2 => i + 2, ?_, ?_⟩
    · intro i _ j _ he
      rcases i with _ | _ | i <;> rcases j with _ | _ | j <;> simp_all
    · intro i hi
      simp only [List.length_cons] at hi ⊢
      rcases i with _ | _ | i
      · simp
      · simp
      · simp only [List.getElem?_cons_succ, and_true]
        omega
  | @trans l1 l2 l3 p1 p2 ih1 ih2 =>
    obtain ⟨σ, h1, h2⟩ := ih1
    obtain ⟨τ, h3, h4⟩ := ih2
    refine ⟨fun i => τ (σ i), ?_, ?_⟩
    · intro i hi j hj he
      exact h1 i hi j hj (h3 _ (h2 i hi).1 _ (h2 j hj).1 he)
    · intro i hi
      obtain ⟨e1, e2⟩ := h2 i hi
      obtain ⟨e3, e4⟩ := h4 _ e1
      exact ⟨e3, e4.trans e2⟩

/-- Move an id to another offset; a missing id stays missing. -/
def shift (a b : Nat) (z : Int) : Int := if z < 0 then z else z - a + b

theorem shift_neg (a b : Nat) : shift a b (-1) = -1 := rfl

theorem shift_off (a b g : Nat) : shift a b ((a + g : Nat) : Int) = ((b + g : Nat) : Int) := by
  unfold shift
  rw [if_neg (by omega)]
  push_cast
  ring

/-- A full row in the other loader. -/
def moveRow (L' : List String) (k' g0 p0 g0' p0' : Nat) (r : FRow) : FRow :=
  { r with row := ⟨k', shift g0 g0' r.row.gt, shift p0 p0' r.row.pd, idOf L' r.gtLabel, idOf L' r.pdLabel, r.row.iou, r.row.score⟩ }

theorem rowsOf_move (L L' : List String) (d : Det) (iou : Nat → Nat → Rat) (k g0 p0 k' g0' p0' : Nat) :
    (rowsOf L d iou k g0 p0).map (moveRow L' k' g0 p0 g0' p0') = rowsOf L' d iou k' g0' p0' := by
  have hg : ∀ (a : Ann) (g : Nat) (l : String), moveRow L' k' g0 p0 g0' p0' (gtRow d k a ((g0 + g : Nat) : Int) (idOf L (some l)) l)
      = gtRow d k' a ((g0' + g : Nat) : Int) (idOf L' (some l)) l := by
    intro a g l
    simp only [moveRow, gtRow, shift_off, shift_neg, idOf]
  have hp : ∀ (a : Ann) (p : Nat) (l : String) (s : Rat), moveRow L' k' g0 p0 g0' p0' (pdRow d k a ((p0 + p : Nat) : Int) (idOf L (some l)) l s)
      = pdRow d k' a ((p0' + p : Nat) : Int) (idOf L' (some l)) l s := by
    intro a p l s
    simp only [moveRow, pdRow, shift_off, shift_neg, idOf]
  have hpair : ∀ (ga pa : Ann) (g p : Nat) (l l2 : String) (i s : Rat), moveRow L' k' g0 p0 g0' p0'
      (pairRow d k ga pa ((g0 + g : Nat) : Int) ((p0 + p : Nat) : Int) (idOf L (some l)) (idOf L (some l2)) l l2 i s)
      = pairRow d k' ga pa ((g0' + g : Nat) : Int) ((p0' + p : Nat) : Int) (idOf L' (some l)) (idOf L' (some l2)) l l2 i s := by
    intro ga pa g p l l2 i s
    simp only [moveRow, pairRow, shift_off, idOf]
  have hps : ∀ y : Ann × Nat, ((pdSteps d k p0 y).flatMap (fun s => s.out (idOf L s.gl) (idOf L s.pl))).map (moveRow L' k' g0 p0 g0' p0')
      = (pdSteps d k' p0' y).flatMap (fun s => s.out (idOf L' s.gl) (idOf L' s.pl)) := by
    intro y
    unfold pdSteps
    rw [List.flatMap_map, List.flatMap_map, List.map_flatMap]
    congr 1
    funext z
    simp only [List.map_cons, List.map_nil, hp]
  unfold rowsOf detSteps
  split
  · rw [List.flatMap_assoc, List.flatMap_assoc, List.map_flatMap]
    congr 1
    funext x
    unfold gtSteps
    rw [List.flatMap_cons, List.flatMap_cons, List.map_append, List.flatMap_assoc, List.flatMap_assoc, List.map_flatMap]
    congr 1
    · dsimp only
      split
      · simp only [List.map_cons, List.map_nil, hg]
      · rfl
    · congr 1
      funext y
      rw [List.flatMap_append, List.flatMap_append, List.map_append]
      congr 1
      · split
        · exact hps y
        · rfl
      · split
        · rw [List.flatMap_assoc, List.flatMap_assoc, List.map_flatMap]
          congr 1
          funext l
          rw [List.flatMap_map, List.flatMap_map, List.map_flatMap]
          congr 1
          funext z
          simp only [List.map_cons, List.map_nil, hpair]
        · rfl
  · rw [List.flatMap_assoc, List.flatMap_assoc, List.map_flatMap]
    congr 1
    funext y
    exact hps y

/-! ## The renaming -/

/-- The label id in the other loader. -/
def moveLabel (L L' : List String) (z : Int) : Int := if z < 0 then z else (L'.idxOf (L.getD z.toNat "") : Int)

theorem moveLabel_idOf {L L' : List String} {o : Option String} (h : ∀ v, o = some v → v ∈ L) : moveLabel L L' (idOf L o) = idOf L' o := by
  cases o with
  | none => rfl
  | some v =>
    have hv := List.idxOf_lt_length_of_mem (h v rfl)
    have he : idOf L (some v) = ((L.idxOf v : Nat) : Int) := rfl
    rw [he]
    unfold moveLabel
    rw [if_neg (by omega), Int.toNat_natCast, List.getD_eq_getElem?_getD, List.getElem?_eq_getElem hv, Option.getD_some,
      List.getElem_idxOf hv]
    rfl

/-- The row of the other loader. -/
def moveOf (L L' : List String) (H H' : History) (σ : Nat → Nat) (r : Row) : Row :=
  ⟨σ r.datum.toNat, shift (gtOffset H r.datum.toNat) (gtOffset H' (σ r.datum.toNat)) r.gt,
    shift (pdOffset H r.datum.toNat) (pdOffset H' (σ r.datum.toNat)) r.pd, moveLabel L L' r.gl, moveLabel L L' r.pl, r.iou, r.score⟩

/-- The rows of the detections. -/
def loaderPieces (calls : List History) : List (List Row) := (Loader.init.addAll calls).rows.map (fun p => p.map FRow.row)

theorem loaderPieces_flatten (calls : List History) : (loaderPieces calls).flatten = loaderRows calls := by
  unfold loaderPieces loaderRows
  rw [List.map_flatten]

theorem loaderPieces_asc (calls : List History) :
    (loaderPieces calls).Pairwise (fun a b => ∀ x ∈ a, ∀ y ∈ b, x.datum < y.datum) := by
  unfold loaderPieces
  rw [List.pairwise_map]
  refine (loader_ascending calls).imp ?_
  intro a b hab x hx y hy
  obtain ⟨f, hf, rfl⟩ := List.mem_map.1 hx
  obtain ⟨g, hg, rfl⟩ := List.mem_map.1 hy
  exact hab f hf g hg

theorem loaderPieces_eq (calls : List History) : loaderPieces calls = (List.range calls.flatten.length).map (fun k =>
    match calls.flatten[k]? with
    | some x => (rowsOf (Loader.init.addAll calls).labels x.1 x.2 k (gtOffset calls.flatten k) (pdOffset calls.flatten k)).map FRow.row
    | none => []) := by
  unfold loaderPieces
  rw [(linv_addAll calls).rows _ List.prefix_rfl, List.map_map]
  apply List.ext_getElem
  · simp
  · intro i h1 h2
    simp only [List.length_map, List.length_zipIdx] at h1
    simp only [List.getElem_map, List.getElem_zipIdx, Function.comp_apply, List.getElem_range, List.getElem?_eq_getElem h1, Nat.zero_add]

theorem loaderRows_mem {calls : List History} {r : Row} (h : r ∈ loaderRows calls) : ∃ k x f, calls.flatten[k]? = some x ∧
    IsRow (Loader.init.addAll calls).labels x.1 x.2 k (gtOffset calls.flatten k) (pdOffset calls.flatten k) f ∧ f.row = r := by
  unfold loaderRows at h
  obtain ⟨f, hf, rfl⟩ := List.mem_map.1 h
  obtain ⟨p, hp, hfp⟩ := List.mem_flatten.1 hf
  obtain ⟨k, hk, rfl⟩ := List.getElem_of_mem hp
  obtain ⟨_, hlen, hrows⟩ := C34_rows calls
  have hkx : calls.flatten[k]? = some (calls.flatten[k]'(by omega)) := List.getElem?_eq_getElem (by omega)
  obtain ⟨payload, h1, h2⟩ := hrows k _ hkx
  rw [List.getElem?_eq_getElem hk] at h1
  have := Option.some.inj h1
  exact ⟨k, _, f, hkx, (h2 f).1 (this ▸ hfp), rfl⟩

theorem idOf_texts {L : List String} {d : Det} {iou : Nat → Nat → Rat} {k g0 p0 : Nat} {f : FRow} (h : IsRow L d iou k g0 p0 f) :
    f.row.gl = idOf L f.gtLabel ∧ f.row.pl = idOf L f.pdLabel := by
  obtain ⟨h1, h2⟩ := h.texts
  constructor
  · rcases h1 with ⟨e, e', _⟩ | ⟨v, e, e', _⟩ <;> rw [e, e'] <;> rfl
  · rcases h2 with ⟨e, e', _⟩ | ⟨v, e, e', _⟩ <;> rw [e, e'] <;> rfl

/-- On the rows of a detection the renaming is the move of the full row. -/
theorem moveOf_row {calls : List History} {H' : History} {L' : List String} {σ : Nat → Nat} {k : Nat} {x : Det × (Nat → Nat → Rat)} {f : FRow}
    (hk : calls.flatten[k]? = some x)
    (hf : IsRow (Loader.init.addAll calls).labels x.1 x.2 k (gtOffset calls.flatten k) (pdOffset calls.flatten k) f) :
    moveOf (Loader.init.addAll calls).labels L' calls.flatten H' σ f.row
      = (moveRow L' (σ k) (gtOffset calls.flatten k) (pdOffset calls.flatten k) (gtOffset H' (σ k)) (pdOffset H' (σ k)) f).row := by
  obtain ⟨hl1, hl2⟩ := isRow_labels calls hk hf
  obtain ⟨e1, e2⟩ := idOf_texts hf
  unfold moveOf moveRow
  rw [hf.datum, e1, e2, moveLabel_idOf hl1, moveLabel_idOf hl2]
  simp only [Int.toNat_natCast]

/-- What the renaming does to a row. -/
structure MoveSpec (calls calls' : List History) (σ : Nat → Nat) (r r' : Row) (k : Nat) (x : Det × (Nat → Nat → Rat)) (og op : Option String) : Prop where
  hk : calls.flatten[k]? = some x
  hk' : calls'.flatten[σ k]? = some x
  datum : r.datum = k ∧ r'.datum = (σ k : Int)
  gt : (r.gt = -1 ∧ r'.gt = -1) ∨ ∃ g, g < x.1.gts.length ∧ r.gt = ((gtOffset calls.flatten k + g : Nat) : Int) ∧
    r'.gt = ((gtOffset calls'.flatten (σ k) + g : Nat) : Int)
  pd : (r.pd = -1 ∧ r'.pd = -1) ∨ ∃ p, p < x.1.pds.length ∧ r.pd = ((pdOffset calls.flatten k + p : Nat) : Int) ∧
    r'.pd = ((pdOffset calls'.flatten (σ k) + p : Nat) : Int)
  gl : r.gl = idOf (Loader.init.addAll calls).labels og ∧ r'.gl = idOf (Loader.init.addAll calls').labels og
  pl : r.pl = idOf (Loader.init.addAll calls).labels op ∧ r'.pl = idOf (Loader.init.addAll calls').labels op
  og1 : ∀ v, og = some v → v ∈ (Loader.init.addAll calls).labels
  og2 : ∀ v, og = some v → v ∈ (Loader.init.addAll calls').labels
  op1 : ∀ v, op = some v → v ∈ (Loader.init.addAll calls).labels
  op2 : ∀ v, op = some v → v ∈ (Loader.init.addAll calls').labels
  rest : r'.iou = r.iou ∧ r'.score = r.score

theorem isRow_move {L L' : List String} {d : Det} {iou : Nat → Nat → Rat} {k g0 p0 k' g0' p0' : Nat} {f : FRow}
    (h : IsRow L d iou k g0 p0 f) : IsRow L' d iou k' g0' p0' (moveRow L' k' g0 p0 g0' p0' f) := by
  rw [← mem_rowsOf] at h ⊢
  rw [← rowsOf_move L L' d iou k g0 p0 k' g0' p0']
  exact List.mem_map_of_mem h

theorem move_spec {calls calls' : List History} {σ : Nat → Nat}
    (hσ : ∀ i < calls.flatten.length, σ i < calls'.flatten.length ∧ calls'.flatten[σ i]? = calls.flatten[i]?)
    {r : Row} (hr : r ∈ loaderRows calls) : ∃ k x og op, MoveSpec calls calls' σ r
      (moveOf (Loader.init.addAll calls).labels (Loader.init.addAll calls').labels calls.flatten calls'.flatten σ r) k x og op := by
  obtain ⟨k, x, f, hk, hf, rfl⟩ := loaderRows_mem hr
  have hk' : calls'.flatten[σ k]? = some x := by rw [(hσ k (getElem?_lt hk)).2, hk]
  have hf' := isRow_move (L' := (Loader.init.addAll calls').labels) (k' := σ k) (g0' := gtOffset calls'.flatten (σ k))
    (p0' := pdOffset calls'.flatten (σ k)) hf
  obtain ⟨a1, a2⟩ := isRow_labels calls hk hf
  obtain ⟨b1, b2⟩ := isRow_labels calls' hk' hf'
  obtain ⟨e1, e2⟩ := idOf_texts hf
  rw [moveOf_row hk hf]
  refine ⟨k, x, f.gtLabel, f.pdLabel, hk, hk', ⟨hf.datum, rfl⟩, ?_, ?_, ⟨e1, rfl⟩, ⟨e2, rfl⟩, a1, b1, a2, b2, rfl, rfl⟩
  · rcases hf.gtId with h | ⟨g, hg, h⟩
    · left
      exact ⟨h, by simp only [moveRow, h, shift_neg]⟩
    · right
      exact ⟨g, hg, h, by simp only [moveRow, h, shift_off]⟩
  · rcases hf.pdId with h | ⟨g, hg, h⟩
    · left
      exact ⟨h, by simp only [moveRow, h, shift_neg]⟩
    · right
      exact ⟨g, hg, h, by simp only [moveRow, h, shift_off]⟩

theorem idOf_inj {L : List String} {a b : Option String} (ha : ∀ v, a = some v → v ∈ L) : idOf L a = idOf L b ↔ a = b := by
  cases a with
  | none =>
    cases b with
    | none => simp
    | some w => simp [idOf]
  | some v =>
    cases b with
    | none => simp [idOf]
    | some w =>
      simp only [idOf, Option.some.injEq]
      exact idxOf_eq_iff (ha v rfl)

/-- The renaming of the loaders. -/
theorem loader_renames {calls calls' : List History} {σ : Nat → Nat}
    (hi : ∀ i < calls.flatten.length, ∀ j < calls.flatten.length, σ i = σ j → i = j)
    (hσ : ∀ i < calls.flatten.length, σ i < calls'.flatten.length ∧ calls'.flatten[σ i]? = calls.flatten[i]?)
    (hok : ∀ r ∈ loaderRows calls, RowOk r) (hok' : ∀ r ∈ loaderRows calls', RowOk r)
    (hsub : ∀ r ∈ loaderRows calls, moveOf (Loader.init.addAll calls).labels (Loader.init.addAll calls').labels calls.flatten
      calls'.flatten σ r ∈ loaderRows calls') :
    Renames (moveOf (Loader.init.addAll calls).labels (Loader.init.addAll calls').labels calls.flatten calls'.flatten σ) (loaderRows calls) := by
  have hgt0 : ∀ {calls calls' : List History} {σ : Nat → Nat} {r r' k x og op}, MoveSpec calls calls' σ r r' k x og op → (0 ≤ r'.gt ↔ 0 ≤ r.gt) ∧ (0 ≤ r'.pd ↔ 0 ≤ r.pd) := by
    intro calls calls' σ r r' k x og op h
    constructor
    · rcases h.gt with ⟨e1, e2⟩ | ⟨g, _, e1, e2⟩ <;> (rw [e1, e2]; try omega)
    · rcases h.pd with ⟨e1, e2⟩ | ⟨g, _, e1, e2⟩ <;> (rw [e1, e2]; try omega)
  refine ⟨fun _ => rfl, fun _ => rfl, ?_, ?_, ?_, ?_, ?_, ?_, ?_, ?_, hok, fun r hr => hok' _ (hsub r hr), ?_⟩
  · intro r hr
    obtain ⟨k, x, og, op, h⟩ := move_spec hσ hr
    exact (hgt0 h).1
  · intro r hr
    obtain ⟨k, x, og, op, h⟩ := move_spec hσ hr
    exact (hgt0 h).2
  · intro r hr s hs
    obtain ⟨k, x, og, op, h⟩ := move_spec hσ hr
    obtain ⟨k2, x2, og2, op2, h2⟩ := move_spec hσ hs
    rw [h.datum.1, h.datum.2, h2.datum.1, h2.datum.2]
    constructor
    · intro he
      rw [hi k (getElem?_lt h.hk) k2 (getElem?_lt h2.hk) (by exact_mod_cast he)]
    · intro he
      have : k = k2 := by exact_mod_cast he
      rw [this]
  · intro r hr s hs
    obtain ⟨k, x, og, op, h⟩ := move_spec hσ hr
    obtain ⟨k2, x2, og2, op2, h2⟩ := move_spec hσ hs
    rcases h.gt with ⟨e1, e2⟩ | ⟨g, hg, e1, e2⟩ <;> rcases h2.gt with ⟨e3, e4⟩ | ⟨g2, hg2, e3, e4⟩ <;> rw [e1, e2, e3, e4]
    · omega
    · omega
    · constructor
      · intro he
        obtain ⟨q1, q2⟩ := (C34_ids calls'.flatten h.hk' h2.hk').1 hg hg2 (by exact_mod_cast he)
        rw [hi k (getElem?_lt h.hk) k2 (getElem?_lt h2.hk) q1, q2]
      · intro he
        obtain ⟨q1, q2⟩ := (C34_ids calls.flatten h.hk h2.hk).1 hg hg2 (by exact_mod_cast he)
        rw [q1, q2]
  · intro r hr s hs
    obtain ⟨k, x, og, op, h⟩ := move_spec hσ hr
    obtain ⟨k2, x2, og2, op2, h2⟩ := move_spec hσ hs
    rcases h.pd with ⟨e1, e2⟩ | ⟨g, hg, e1, e2⟩ <;> rcases h2.pd with ⟨e3, e4⟩ | ⟨g2, hg2, e3, e4⟩ <;> rw [e1, e2, e3, e4]
    · omega
    · omega
    · constructor
      · intro he
        obtain ⟨q1, q2⟩ := (C34_ids calls'.flatten h.hk' h2.hk').2 hg hg2 (by exact_mod_cast he)
        rw [hi k (getElem?_lt h.hk) k2 (getElem?_lt h2.hk) q1, q2]
      · intro he
        obtain ⟨q1, q2⟩ := (C34_ids calls.flatten h.hk h2.hk).2 hg hg2 (by exact_mod_cast he)
        rw [q1, q2]
  · intro r hr s hs
    obtain ⟨k, x, og, op, h⟩ := move_spec hσ hr
    obtain ⟨k2, x2, og2, op2, h2⟩ := move_spec hσ hs
    rw [h.gl.1, h.gl.2, h2.gl.1, h2.gl.2, idOf_inj h.og1, idOf_inj h.og2]
  · intro r hr s hs
    obtain ⟨k, x, og, op, h⟩ := move_spec hσ hr
    obtain ⟨k2, x2, og2, op2, h2⟩ := move_spec hσ hs
    rw [h.pl.1, h.pl.2, h2.pl.1, h2.pl.2, idOf_inj h.op1, idOf_inj h.op2]
  · intro r hr
    obtain ⟨k, x, og, op, h⟩ := move_spec hσ hr
    rw [h.gl.1, h.gl.2, h.pl.1, h.pl.2, idOf_inj h.og1, idOf_inj h.og2]
  · intro r hr s hs hd hlt
    obtain ⟨k, x, og, op, h⟩ := move_spec hσ hr
    obtain ⟨k2, x2, og2, op2, h2⟩ := move_spec hσ hs
    have hkk : k = k2 := by
      rw [h.datum.1, h2.datum.1] at hd
      exact_mod_cast hd
    subst hkk
    rcases h.pd with ⟨e1, e2⟩ | ⟨g, hg, e1, e2⟩ <;> rcases h2.pd with ⟨e3, e4⟩ | ⟨g2, hg2, e3, e4⟩ <;> rw [e1, e3] at hlt <;> rw [e2, e4]
    · omega
    · omega
    · omega
    · push_cast at hlt ⊢
      omega

theorem range_map_perm {n : Nat} {σ : Nat → Nat} (hi : ∀ i < n, ∀ j < n, σ i = σ j → i = j) (hσ : ∀ i < n, σ i < n) :
    ((List.range n).map σ).Perm (List.range n) := by
  have hnd : ((List.range n).map σ).Nodup := by
    apply List.Nodup.map_on _ List.nodup_range
    intro i hi' j hj'
    exact hi i (List.mem_range.1 hi') j (List.mem_range.1 hj')
  have hsub : ((List.range n).map σ) ⊆ List.range n := by
    intro y hy
    obtain ⟨i, hi', rfl⟩ := List.mem_map.1 hy
    exact List.mem_range.2 (hσ i (List.mem_range.1 hi'))
  exact (hnd.subperm hsub).perm_of_length_le (by simp)

/-- **Loaders.** Two loaders that got the same detections in different orders hold the same rows up to a renaming; label `v` of
one corresponds to label `v` of the other. -/
theorem loader_reordered {calls calls' : List History} (hp : calls.flatten.Perm calls'.flatten)
    (hok : ∀ r ∈ loaderRows calls, RowOk r) (hok' : ∀ r ∈ loaderRows calls', RowOk r) :
    ∃ f, Reordered f (loaderPieces calls) (loaderPieces calls') ∧ ∀ v : String, ∀ r ∈ (loaderPieces calls).flatten,
      ((f r).gl = ((Loader.init.addAll calls').labels.idxOf v : Nat) ↔ r.gl = ((Loader.init.addAll calls).labels.idxOf v : Nat)) ∧
      ((f r).pl = ((Loader.init.addAll calls').labels.idxOf v : Nat) ↔ r.pl = ((Loader.init.addAll calls).labels.idxOf v : Nat)) := by
  obtain ⟨σ, hi, hσ⟩ := perm_index hp
  have hlen := hp.length_eq
  have hpieces : (loaderPieces calls).map (List.map (moveOf (Loader.init.addAll calls).labels (Loader.init.addAll calls').labels
      calls.flatten calls'.flatten σ)) = ((List.range calls.flatten.length).map σ).map (fun k => match calls'.flatten[k]? with
    | some x => (rowsOf (Loader.init.addAll calls').labels x.1 x.2 k (gtOffset calls'.flatten k) (pdOffset calls'.flatten k)).map FRow.row
    | none => []) := by
    rw [loaderPieces_eq, List.map_map, List.map_map]
    apply List.map_congr_left
    intro k hk
    have hkl := List.mem_range.1 hk
    have hkx := List.getElem?_eq_getElem hkl
    simp only [Function.comp_apply]
    rw [(hσ k hkl).2, hkx]
    dsimp only
    rw [← rowsOf_move (Loader.init.addAll calls).labels (Loader.init.addAll calls').labels _ _ k (gtOffset calls.flatten k)
      (pdOffset calls.flatten k) (σ k) (gtOffset calls'.flatten (σ k)) (pdOffset calls'.flatten (σ k)), List.map_map, List.map_map]
    apply List.map_congr_left
    intro f hf
    rw [mem_rowsOf] at hf
    exact moveOf_row hkx hf
  have hperm : (loaderPieces calls').Perm ((loaderPieces calls).map (List.map (moveOf (Loader.init.addAll calls).labels (Loader.init.addAll calls').labels
      calls.flatten calls'.flatten σ))) := by
    rw [hpieces, loaderPieces_eq calls', ← hlen]
    exact ((range_map_perm hi (fun i h => by rw [hlen]; exact (hσ i h).1)).map _).symm
  have hsub : ∀ r ∈ loaderRows calls, moveOf (Loader.init.addAll calls).labels (Loader.init.addAll calls').labels calls.flatten
      calls'.flatten σ r ∈ loaderRows calls' := by
    intro r hr
    rw [← loaderPieces_flatten] at hr ⊢
    obtain ⟨p, hpp, hrp⟩ := List.mem_flatten.1 hr
    exact List.mem_flatten.2 ⟨_, hperm.mem_iff.2 (List.mem_map_of_mem hpp), List.mem_map_of_mem hrp⟩
  refine ⟨_, ⟨?_, ?_, loaderPieces_asc calls, loaderPieces_asc calls', hperm⟩, ?_⟩
  · rw [loaderPieces_flatten]
    exact loader_renames hi hσ hok hok' hsub
  · intro p hp' x hx y hy
    unfold loaderPieces at hp'
    obtain ⟨q, hq, rfl⟩ := List.mem_map.1 hp'
    obtain ⟨k, hk, rfl⟩ := List.getElem_of_mem hq
    obtain ⟨fx, hfx, rfl⟩ := List.mem_map.1 hx
    obtain ⟨fy, hfy, rfl⟩ := List.mem_map.1 hy
    rw [(payload_datum calls k hk fx hfx).1, (payload_datum calls k hk fy hfy).1]
  · intro v r hr
    rw [loaderPieces_flatten] at hr
    obtain ⟨k, x, og, op, h⟩ := move_spec hσ hr
    have e : ∀ L : List String, ((L.idxOf v : Nat) : Int) = idOf L (some v) := fun _ => rfl
    rw [h.gl.1, h.gl.2, h.pl.1, h.pl.2, e, e, idOf_inj h.og1, idOf_inj h.og2, idOf_inj h.op1, idOf_inj h.op2]
    exact ⟨Iff.rfl, Iff.rfl⟩

end Verif.Detection
