import Verif.Classification.Filter
import Verif.Classification.RocProps

/-! # C23, C35, C50 for classification -/

namespace Verif.Classification

open Verif.Shared

/-! ## C23 -/

/-- Whether an optional condition holds. -/
def Holds (e : Option Expr) (r : Row) : Bool := match e with
  | none => true
  | some f => f r

/-- The condition only depends on the datum and the ground truth. -/
def GtSided (e : Option Expr) (rows : List Row) : Prop :=
  ∀ r ∈ rows, ∀ r' ∈ rows, r.datum = r'.datum → r.gt = r'.gt → Holds e r = Holds e r'

/-- The condition only depends on the datum and the prediction. -/
def PdSided (e : Option Expr) (rows : List Row) : Prop :=
  ∀ r ∈ rows, ∀ r' ∈ rows, r.datum = r'.datum → r.pd = r'.pd → Holds e r = Holds e r'

theorem sideMask_iff {e : Option Expr} {f : Row → Int} {rows : List Row} {r : Row} (hr : r ∈ rows) :
    sideMask e f rows r = true ↔ ∃ r' ∈ rows, Holds e r' = true ∧ r'.datum = r.datum ∧ f r' = f r := by
  cases e with
  | none =>
    simp only [sideMask, Holds, true_iff]
    exact ⟨r, hr, trivial, rfl, rfl⟩
  | some e =>
    unfold sideMask unique
    simp only [List.any_eq_true, List.mem_dedup, List.mem_map, List.mem_filter, decide_eq_true_eq]
    constructor
    · rintro ⟨x, ⟨r', ⟨h1, h2⟩, rfl⟩, he⟩
      simp only [Prod.mk.injEq] at he
      exact ⟨r', h1, h2, he.1, he.2⟩
    · rintro ⟨r', h1, h2, h3, h4⟩
      exact ⟨_, ⟨r', ⟨h1, h2⟩, rfl⟩, by rw [h3, h4]⟩

theorem readTable_eq (d : Option Expr) (t : List Row) : readTable d t = t.filter (Holds d) := by
  cases d with
  | none => exact (List.filter_eq_self.2 (fun _ _ => rfl)).symm
  | some e => rfl

/-- **C23, any conditions.** A row survives iff it satisfies the datum condition, some row of the same
table, datum and ground truth satisfies the datum and the ground truth condition, and some row of the
same table, datum and prediction satisfies the datum and the prediction condition. Rows are unchanged
and keep their order. -/
theorem C23_filter_general (d g p : Option Expr) (tables : List (List Row)) :
    List.Forall₂ (fun out src => out.Sublist src ∧ ∀ r ∈ src, (r ∈ out ↔ Holds d r = true ∧
      (∃ r' ∈ src, Holds d r' = true ∧ Holds g r' = true ∧ r'.datum = r.datum ∧ r'.gt = r.gt) ∧
      (∃ r' ∈ src, Holds d r' = true ∧ Holds p r' = true ∧ r'.datum = r.datum ∧ r'.pd = r.pd)))
      (filterTables d g p tables) tables := by
  unfold filterTables
  rw [List.forall₂_map_left_iff]
  apply List.forall₂_same.2
  intro t _
  rw [readTable_eq]
  refine ⟨List.filter_sublist.trans List.filter_sublist, ?_⟩
  intro r hr
  unfold filterTable
  rw [List.mem_filter, List.mem_filter, Bool.and_eq_true]
  constructor
  · rintro ⟨⟨_, h1⟩, h2, h3⟩
    have hm : r ∈ t.filter (Holds d) := List.mem_filter.2 ⟨hr, h1⟩
    obtain ⟨a, ha, ha'⟩ := (sideMask_iff hm).1 h2
    obtain ⟨b, hb, hb'⟩ := (sideMask_iff hm).1 h3
    rw [List.mem_filter] at ha hb
    exact ⟨h1, ⟨a, ha.1, ha.2, ha'⟩, ⟨b, hb.1, hb.2, hb'⟩⟩
  · rintro ⟨h1, ⟨a, ha, ha1, ha2⟩, ⟨b, hb, hb1, hb2⟩⟩
    have hm : r ∈ t.filter (Holds d) := List.mem_filter.2 ⟨hr, h1⟩
    exact ⟨⟨hr, h1⟩, (sideMask_iff hm).2 ⟨a, List.mem_filter.2 ⟨ha, ha1⟩, ha2⟩,
      (sideMask_iff hm).2 ⟨b, List.mem_filter.2 ⟨hb, hb1⟩, hb2⟩⟩

/-- **C23.** If the ground truth condition only depends on the ground truth side and the prediction
condition only on the prediction side, `filter` writes exactly the rows satisfying all conditions,
unchanged, in order and as often as they occur, for every cut of the cache into tables. -/
theorem C23_filter (d g p : Option Expr) (tables : List (List Row))
    (hg : GtSided g tables.flatten) (hp : PdSided p tables.flatten) :
    (filterTables d g p tables).flatten
      = tables.flatten.filter (fun r => Holds d r && Holds g r && Holds p r) := by
  unfold filterTables
  induction tables with
  | nil => rfl
  | cons t ts ih =>
    have hsub : ∀ x ∈ t, x ∈ (t :: ts).flatten := fun x hx => List.mem_flatten.2 ⟨t, by simp, hx⟩
    have hsub2 : ∀ x ∈ ts.flatten, x ∈ (t :: ts).flatten := by
      intro x hx
      rw [List.flatten_cons]
      exact List.mem_append_right _ hx
    rw [List.map_cons, List.flatten_cons, List.flatten_cons, List.filter_append,
      ih (fun a ha b hb => hg a (hsub2 a ha) b (hsub2 b hb))
        (fun a ha b hb => hp a (hsub2 a ha) b (hsub2 b hb)), readTable_eq]
    congr 1
    unfold filterTable
    rw [List.filter_filter]
    apply List.filter_congr
    intro r hr
    by_cases hd : Holds d r = true
    · have hm : r ∈ t.filter (Holds d) := List.mem_filter.2 ⟨hr, hd⟩
      have e1 : sideMask g Row.gt (t.filter (Holds d)) r = Holds g r := by
        rw [Bool.eq_iff_iff, sideMask_iff hm]
        constructor
        · rintro ⟨a, ha, h1, h2, h3⟩
          rw [← hg a (hsub a (List.mem_filter.1 ha).1) r (hsub r hr) h2 h3]
          exact h1
        · intro h
          exact ⟨r, hm, h, rfl, rfl⟩
      have e2 : sideMask p Row.pd (t.filter (Holds d)) r = Holds p r := by
        rw [Bool.eq_iff_iff, sideMask_iff hm]
        constructor
        · rintro ⟨a, ha, h1, h2, h3⟩
          rw [← hp a (hsub a (List.mem_filter.1 ha).1) r (hsub r hr) h2 h3]
          exact h1
        · intro h
          exact ⟨r, hm, h, rfl, rfl⟩
      rw [e1, e2, hd]
      simp
    · simp [hd]

/-! ### Filtering datums: the metrics are those of the kept classifications -/

theorem cnt_kept {L : List String} (hL : L.length ≤ 100000) {l : String} (hl : l ∈ L)
    (h : Bool) (t : Rat) (xs : List (Classif × Nat)) (hnd : (xs.map Prod.snd).Nodup)
    (hc : ∀ x ∈ xs, Covers L x.1) :
    cnt (xs.map (fun x => rowsOf L x.2 x.1)).flatten h t (L.idxOf l : Nat)
      = ⟨specTP (xs.map Prod.fst) t h l, specFP (xs.map Prod.fst) t h l,
          specFN (xs.map Prod.fst) t h l, specTN (xs.map Prod.fst) t h l⟩ := by
  induction xs with
  | nil => rfl
  | cons x xs ih =>
    rw [List.map_cons, List.nodup_cons] at hnd
    rw [List.map_cons, List.flatten_cons, cnt_append, List.map_cons, spec_cons,
      cnt_block (hc x (by simp)) hL x.2 h t hl, ih hnd.2 (fun d hd => hc d (by simp [hd]))]
    intro a ha b hb
    rw [datum_rowsOf a ha]
    obtain ⟨_, hb1, hb2⟩ := List.mem_flatten.1 hb
    obtain ⟨y, hy, rfl⟩ := List.mem_map.1 hb1
    rw [datum_rowsOf b hb2]
    intro e
    rw [Int.natCast_inj] at e
    exact hnd.1 (e ▸ List.mem_map_of_mem hy)

/-- **C23 (datum filter, metrics).** If the datum condition selects classifications (by uid, metadata or
anything else constant on a datum), the counts of the filtered evaluator, and hence all metrics computed
from them, are those of the selected classifications alone; labels keep the ids of the source. -/
theorem C23_datum_counts (calls : List (List Classif)) (hv : ∀ c ∈ calls.flatten, c.valid = true)
    (hL : (Loader.init.addAll calls).labels.length ≤ 100000)
    (tables : List (List Row)) (ht : tables.flatten.Perm (Loader.init.addAll calls).rows.flatten)
    (d : Expr) (keep : Classif → Bool)
    (hd : ∀ (k : Nat) (c : Classif), (history calls)[k]? = some c →
      ∀ r ∈ rowsOf (Loader.init.addAll calls).labels k c, d r = keep c)
    (frags : List (List Row)) (hf : FragmentsOf frags (filterTables (some d) none none tables).flatten)
    (ts : List Rat) (hm : Bool) :
    evalCounts frags ts hm (Loader.init.addAll calls).labels.length
      = some (ts.map (fun t => (Loader.init.addAll calls).labels.map (fun l =>
          ⟨specTP ((history calls).filter keep) t hm l, specFP ((history calls).filter keep) t hm l,
            specFN ((history calls).filter keep) t hm l, specTN ((history calls).filter keep) t hm l⟩))) := by
  have hcov := covers_reach calls hv
  have hnd : (Loader.init.addAll calls).labels.Nodup := (linv_reach calls).nodup
  have hrows : (Loader.init.addAll calls).rows = (history calls).zipIdx.map
    (fun x => rowsOf (Loader.init.addAll calls).labels x.2 x.1) := rows_reach calls
  have hin := inRange_reach calls
  set L := (Loader.init.addAll calls).labels with hLdef
  set cs := history calls with hcs
  set xs := cs.zipIdx.filter (fun x => keep x.1) with hxs
  have hperm : (filterTables (some d) none none tables).flatten.Perm
      (xs.map (fun x => rowsOf L x.2 x.1)).flatten := by
    rw [C23_filter (some d) none none tables (fun _ _ _ _ _ _ => rfl) (fun _ _ _ _ _ _ => rfl)]
    refine (ht.filter _).trans (List.Perm.of_eq ?_)
    rw [hrows, hxs]
    have hd' : ∀ x ∈ cs.zipIdx, ∀ r ∈ rowsOf L x.2 x.1, d r = keep x.1 := by
      rintro ⟨c, k⟩ hx r hr
      exact hd k c (by simpa using List.mem_zipIdx_iff_getElem?.1 hx) r hr
    clear * - hd'
    generalize cs.zipIdx = zs at hd' ⊢
    induction zs with
    | nil => rfl
    | cons x ys ih =>
      rw [List.map_cons, List.flatten_cons, List.filter_append, ih (fun y hy => hd' y (by simp [hy])),
        List.filter_cons]
      have hx := hd' x (by simp)
      by_cases hk : keep x.1 = true
      · rw [if_pos hk, List.map_cons, List.flatten_cons]
        congr 1
        rw [List.filter_eq_self]
        intro r hr
        simp [Holds, hx r hr, hk]
      · rw [if_neg hk]
        have : (rowsOf L x.2 x.1).filter (fun r => Holds (some d) r && Holds none r && Holds none r) = [] := by
          rw [List.filter_eq_nil_iff]
          intro r hr
          simp [Holds, hx r hr, hk]
        rw [this, List.nil_append]
  have hf' : FragmentsOf frags (xs.map (fun x => rowsOf L x.2 x.1)).flatten :=
    ⟨hf.perm.trans hperm, hf.aligned⟩
  have hin' : InRange (xs.map (fun x => rowsOf L x.2 x.1)).flatten L.length := by
    intro r hr
    apply hin r
    rw [hrows]
    obtain ⟨b, hb, hr⟩ := List.mem_flatten.1 hr
    obtain ⟨x, hx, rfl⟩ := List.mem_map.1 hb
    exact List.mem_flatten.2 ⟨_, List.mem_map_of_mem (List.mem_filter.1 hx).1, hr⟩
  rw [evalCounts_eq hin' hf']
  congr 1
  apply List.map_congr_left
  intro t _
  refine List.ext_getElem (by simp) ?_
  intro j h1 h2
  have hj : j < L.length := by simpa using h2
  have hmem := List.getElem_mem hj
  rw [List.getElem_map, List.getElem_map, List.getElem_range]
  have hfst : xs.map Prod.fst = cs.filter keep := by
    rw [hxs]
    have := List.zipIdx_map_fst 0 cs
    conv_rhs => rw [← this]
    rw [List.filter_map]
    rfl
  have hsnd : (xs.map Prod.snd).Nodup := by
    have h0 : (cs.zipIdx.map Prod.snd).Nodup := by
      rw [List.zipIdx_map_snd 0 cs]
      exact List.nodup_range'
    exact h0.sublist (List.filter_sublist.map _)
  have := cnt_kept hL hmem hm t xs hsnd (fun x hx => by
    apply hcov
    have h0 := (List.mem_filter.1 hx).1
    obtain ⟨c, k⟩ := x
    exact List.mem_of_getElem? (by simpa using List.mem_zipIdx_iff_getElem?.1 h0))
  rw [hnd.idxOf_getElem j hj, hfst] at this
  exact this

/-- The conditions of `C23_datum_counts` hold for the filter on one uid. -/
example : let d : Expr := fun r => decide (r.uid = "d1")
    (∀ x ∈ (history sample).zipIdx, ∀ r ∈ rowsOf (Loader.init.addAll sample).labels x.2 x.1,
      d r = decide (x.1.uid = "d1")) ∧ ((history sample).filter (fun c => decide (c.uid = "d1"))).length = 1 := by
  decide +kernel

/-- One-sided conditions and a non-trivial outcome for `C23_filter`. -/
example : (filterTables none (some (fun r => decide (r.gtLabel = "dog"))) (some (fun r => decide (r.pdLabel = "dog")))
    [(Loader.init.addAll sample).rows.flatten]).flatten.map (fun r => (r.uid, r.gtLabel, r.pdLabel))
    = [("d1", "dog", "dog"), ("d2", "dog", "dog")] := by decide +kernel

/-! ## C50 -/

/-- **C50 (classification).** For every history and every cut and order of the rows, the extracted
dictionary maps exactly the loader's ids to the loader's labels. -/
theorem C50_classification (calls : List (List Classif)) (hv : ∀ c ∈ calls.flatten, c.valid = true)
    (tables : List (List Row)) (ht : tables.flatten.Perm (Loader.init.addAll calls).rows.flatten) :
    let d := extractLabels (tables.map (fun t => t.map labelCols))
    (d.map Prod.fst).Nodup ∧ d.length = (Loader.init.addAll calls).labels.length ∧
    ∀ (i : Int) (s : String), d.lookup i = some s ↔ 0 ≤ i ∧ (Loader.init.addAll calls).labels[i.toNat]? = some s := by
  have hcov := covers_reach calls hv
  have inv := linv_reach calls
  have hrows : (Loader.init.addAll calls).rows = (history calls).zipIdx.map
    (fun x => rowsOf (Loader.init.addAll calls).labels x.2 x.1) := rows_reach calls
  set L := (Loader.init.addAll calls).labels with hLdef
  set cs := history calls with hcs
  intro d
  have hflat : (tables.map (fun t => t.map labelCols)).flatten = tables.flatten.map labelCols := by
    rw [List.map_flatten]
  have hmem : ∀ r, r ∈ tables.flatten ↔ r ∈ (cs.zipIdx.map (fun x => rowsOf L x.2 x.1)).flatten := by
    intro r
    rw [← hrows]
    exact ht.mem_iff
  have hlab : ∀ v ∈ L, L[(L.idxOf v)]? = some v := by
    intro v hv
    rw [List.getElem?_eq_getElem (idxOf_lt' hv)]
    simp
  obtain ⟨h1, h2⟩ := C50_extract (f := fun i => (L[i.toNat]?).getD "") (tables.map (fun t => t.map labelCols)) (by
    rw [hflat]
    intro r hr
    obtain ⟨x, hx, rfl⟩ := List.mem_map.1 hr
    obtain ⟨k, c, i, p, s, hk, hp, _, rfl⟩ := mem_reach.1 ((hmem x).1 hx)
    have hc := hcov c (List.mem_of_getElem? hk)
    have a1 := hlab c.gt hc.gt
    have a2 := hlab p (hc.preds p (List.mem_of_getElem? hp))
    simp only [labelCols, rowOf, Int.toNat_natCast, a1, a2, Option.getD_some]
    exact ⟨fun _ => trivial, fun _ => trivial⟩)
  have hlook : ∀ (i : Int) (s : String), d.lookup i = some s ↔ 0 ≤ i ∧ L[i.toNat]? = some s := by
    intro i s
    rw [h2, hflat]
    constructor
    · rintro ⟨⟨_, r, hr, he⟩, rfl⟩
      obtain ⟨x, hx, rfl⟩ := List.mem_map.1 hr
      obtain ⟨k, c, j, p, s, hk, hp, _, rfl⟩ := mem_reach.1 ((hmem x).1 hx)
      have hc := hcov c (List.mem_of_getElem? hk)
      rcases he with rfl | rfl
      · have a1 := hlab c.gt hc.gt
        simp only [labelCols, rowOf, Int.toNat_natCast, a1, Option.getD_some]
        exact ⟨by omega, trivial⟩
      · have a2 := hlab p (hc.preds p (List.mem_of_getElem? hp))
        simp only [labelCols, rowOf, Int.toNat_natCast, a2, Option.getD_some]
        exact ⟨by omega, trivial⟩
    · rintro ⟨h0, hs⟩
      refine ⟨⟨by omega, ?_⟩, by simp [hs]⟩
      have hsL : s ∈ L := List.mem_of_getElem? hs
      have hi : (L.idxOf s : Int) = i := by
        obtain ⟨hlt, he⟩ := List.getElem?_eq_some_iff.1 hs
        have hx : L.idxOf L[i.toNat] = i.toNat := inv.nodup.idxOf_getElem i.toNat hlt
        rw [he] at hx
        omega
      obtain ⟨c, hc, hcase⟩ := inv.onlyUsed s hsL
      obtain ⟨k, hk⟩ := List.mem_iff_getElem?.1 hc
      have hcc := hcov c hc
      rcases hcase with rfl | hp
      · have hp0 : 0 < c.preds.length := List.length_pos_iff.2 hcc.ne
        have hs0 : 0 < c.scores.length := by rw [← hcc.valid]; exact hp0
        refine ⟨_, List.mem_map_of_mem ((hmem _).2 (mem_reach.2 ⟨k, c, 0, _, _, hk,
          List.getElem?_eq_getElem hp0, List.getElem?_eq_getElem hs0, rfl⟩)), Or.inl ?_⟩
        exact hi
      · obtain ⟨j, hj⟩ := List.mem_iff_getElem?.1 hp
        have hs0 : j < c.scores.length := by rw [← hcc.valid]; exact (List.getElem?_eq_some_iff.1 hj).1
        refine ⟨_, List.mem_map_of_mem ((hmem _).2 (mem_reach.2 ⟨k, c, j, _, _, hk,
          hj, List.getElem?_eq_getElem hs0, rfl⟩)), Or.inr ?_⟩
        exact hi
  refine ⟨h1, ?_, hlook⟩
  have hkeys : (d.map Prod.fst).Perm ((List.range L.length).map (fun j : Nat => (j : Int))) := by
    rw [List.perm_ext_iff_of_nodup h1 (List.nodup_range.map (fun a b h => Int.natCast_inj.1 h))]
    intro i
    have hk : i ∈ d.map Prod.fst ↔ ∃ s, d.lookup i = some s := by
      rw [← Option.isSome_iff_exists, List.lookup_isSome_iff]
      constructor
      · intro h
        obtain ⟨x, hx, rfl⟩ := List.mem_map.1 h
        exact ⟨x, hx, by simp⟩
      · rintro ⟨x, hx, he⟩
        exact List.mem_map.2 ⟨x, hx, (eq_of_beq he).symm⟩
    rw [hk]
    simp only [hlook, List.mem_map, List.mem_range]
    constructor
    · rintro ⟨s, h0, hs⟩
      exact ⟨i.toNat, (List.getElem?_eq_some_iff.1 hs).1, by omega⟩
    · rintro ⟨j, hj, rfl⟩
      exact ⟨L[j], by omega, by simp [hj]⟩
  have := hkeys.length_eq
  simpa using this

/-! ## C35 -/

/-- **C35 (classification).** After any history that stored a row, with labels read from the cache: the
first `finalize` succeeds, every later one (also after adding more rows) raises and changes nothing. -/
theorem C35_classification (calls : List (List Classif)) (hv : ∀ c ∈ calls.flatten, c.valid = true)
    (hne : (Loader.init.addAll calls).rows.flatten ≠ [])
    (tables sorted : List (List Row)) (hp : tables.flatten.Perm (Loader.init.addAll calls).rows.flatten)
    (ht : sorted.flatten.Perm tables.flatten)
    (inter : List (List IRow)) (hi : inter.flatten.Perm (sorted.flatten.map irow)) :
    ∃ b e, (⟨tables, []⟩ : Builder).finalize sorted inter none = .ok (b, e) ∧
      b.roc = e.roc ∧ b.tables = e.tables ∧
      ∀ more sorted' inter' o, (⟨b.tables ++ more, b.roc⟩ : Builder).finalize sorted' inter' o
        = .error .already := by
  have hC := C50_classification calls hv sorted (ht.trans hp)
  have hcov := covers_reach calls hv
  have hrows : (Loader.init.addAll calls).rows = (history calls).zipIdx.map
    (fun x => rowsOf (Loader.init.addAll calls).labels x.2 x.1) := rows_reach calls
  set L := (Loader.init.addAll calls).labels with hLdef
  simp only [] at hC
  set d := extractLabels (sorted.map (fun t => t.map labelCols)) with hd
  obtain ⟨h1, h2, h3⟩ := hC
  have hlen : tables.flatten.length ≠ 0 := by
    rw [hp.length_eq]
    intro h
    exact hne (List.length_eq_zero_iff.1 h)
  unfold Builder.finalize
  rw [if_neg hlen, if_neg (by simp)]
  simp only [labelsOf]
  refine ⟨_, _, rfl, rfl, rfl, ?_⟩
  intro more sorted' inter' o
  rw [if_neg, if_pos]
  · -- the curve has a row
    obtain ⟨x, hx⟩ := List.exists_mem_of_ne_nil _ hne
    have hx' := hx
    rw [hrows] at hx'
    obtain ⟨k, c, i, p, s, hk, hpp, _, rfl⟩ := mem_reach.1 hx'
    have hpL : p ∈ L := (hcov c (List.mem_of_getElem? hk)).preds p (List.mem_of_getElem? hpp)
    have hkey : L.idxOf p ∈ d.map (fun x => x.1.toNat) := by
      have : d.lookup ((L.idxOf p : Nat) : Int) = some p := by
        rw [h3]
        refine ⟨by omega, ?_⟩
        rw [Int.toNat_natCast, List.getElem?_eq_getElem (idxOf_lt' hpL)]
        simp
      have hs : (d.lookup ((L.idxOf p : Nat) : Int)).isSome := by rw [this]; rfl
      rw [List.lookup_isSome_iff] at hs
      obtain ⟨y, hy, he⟩ := hs
      refine List.mem_map.2 ⟨y, hy, ?_⟩
      rw [← eq_of_beq he]
      simp
    have hnn : ∀ y ∈ d.map Prod.fst, 0 ≤ y := by
      intro y hy
      obtain ⟨z, hz, rfl⟩ := List.mem_map.1 hy
      have hs : (d.lookup z.1).isSome := by
        rw [List.lookup_isSome_iff]
        exact ⟨z, hz, by simp⟩
      obtain ⟨v, hv⟩ := Option.isSome_iff_exists.1 hs
      exact ((h3 _ _).1 hv).1
    have hnd : (d.map (fun x => x.1.toNat)).Nodup := by
      have : d.map (fun x => x.1.toNat) = (d.map Prod.fst).map Int.toNat := by rw [List.map_map]; rfl
      rw [this]
      refine List.Nodup.map_on ?_ h1
      intro a ha b hb hab
      have := hnn a ha
      have := hnn b hb
      omega
    have hpts : points (L.idxOf p) (rocCurve (d.map (fun x => x.1.toNat)) d.length inter) = _ :=
      points_curve hnd hkey (n := d.length) (by rw [h2]; exact idxOf_lt' hpL) inter
    have hin : irow (rowOf L k c i p s) ∈ only (L.idxOf p) inter.flatten := by
      apply List.mem_filter.2
      refine ⟨hi.symm.subset (List.mem_map_of_mem (ht.symm.subset (hp.symm.subset hx))), ?_⟩
      simp [irow, rowOf]
    rw [if_neg (List.ne_nil_of_mem hin)] at hpts
    rw [List.nil_append]
    apply List.length_pos_iff.2
    intro hcon
    have hcon' : rocCurve (d.map (fun x => x.1.toNat)) d.length inter = [] := hcon
    rw [hcon'] at hpts
    simp [points] at hpts
  · rw [List.flatten_append, List.length_append, ht.length_eq]
    omega

/-- A loader history with rows exists. -/
example : (Loader.init.addAll sample).rows.flatten ≠ [] := by decide +kernel

end Verif.Classification
