import Verif.Detection.ExEntry

/-! # C59: the examples of the evaluator -/

namespace Verif.Detection

open Verif.Cache (sortBy SortedBy sortBy_sorted sortBy_stable sorted_stable_unique sortedUnique paginate pageLoop keyIndex effLimit
  sortedUnique_strict mem_sortedUnique)

/-! ## Parts of the tables -/

/-- The sorted rows of a detection. -/
def payloadOf (calls : List History) (k : Nat) : List FRow := sortBy fKey ((Loader.init.addAll calls).rows.getD k [])

/-- Tables with whole datums in ascending order. -/
structure Parts (calls : List History) (tables : List (List FRow)) : Prop where
  asc : tables.Pairwise (fun a b => ∀ x ∈ a, ∀ y ∈ b, x.row.datum < y.row.datum)
  part : ∀ T ∈ tables, ∀ f ∈ T, T.filter (fun f' => decide (f'.row.datum = f.row.datum)) = payloadOf calls f.row.datum.toNat
  mem : ∀ T ∈ tables, ∀ f ∈ T, f ∈ (Loader.init.addAll calls).rows.flatten

theorem filter_payload {calls : List History} {k : Nat} {p : List FRow} (hk : (Loader.init.addAll calls).rows[k]? = some p) (j : Int) :
    p.filter (fun f => decide (f.row.datum = j)) = if (k : Int) = j then p else [] := by
  have hl := getElem?_lt hk
  have h := payload_datum calls k hl
  rw [List.getElem?_eq_getElem hl, Option.some.injEq] at hk
  rw [hk] at h
  split
  · rename_i he
    rw [List.filter_eq_self]
    intro f hf
    rw [(h f hf).1, he]
    simp
  · rename_i he
    rw [List.filter_eq_nil_iff]
    intro f hf
    rw [(h f hf).1]
    simpa using he

/-- The rows of one datum among consecutive payloads. -/
theorem filter_group {calls : List History} {j : Nat} (g : List (List FRow)) (hs : g.Sublist (Loader.init.addAll calls).rows) {f : FRow}
    (hf : f ∈ g.flatten) (hj : f.row.datum = (j : Int)) :
    g.flatten.filter (fun f' => decide (f'.row.datum = (j : Int))) = (Loader.init.addAll calls).rows.getD j [] := by
  obtain ⟨p, hp, hfp⟩ := List.mem_flatten.1 hf
  have hpr := hs.subset hp
  obtain ⟨i, hi, rfl⟩ := List.getElem_of_mem hpr
  have hij : i = j := by
    have := (payload_datum calls i hi f hfp).1
    omega
  subst hij
  have hasc := (loader_ascending calls).sublist hs
  obtain ⟨a, b, rfl⟩ := List.append_of_mem hp
  rw [List.flatten_append, List.flatten_cons, List.filter_append, List.filter_append, filter_payload (List.getElem?_eq_getElem hi), if_pos rfl]
  rw [List.pairwise_append] at hasc
  have h1 : a.flatten.filter (fun f' => decide (f'.row.datum = (i : Int))) = [] := by
    rw [List.filter_eq_nil_iff]
    intro x hx hd
    obtain ⟨q, hq, hxq⟩ := List.mem_flatten.1 hx
    have := hasc.2.2 q hq _ (by simp) x hxq f hfp
    have hd : x.row.datum = (i : Int) := by simpa using hd
    omega
  have h2 : b.flatten.filter (fun f' => decide (f'.row.datum = (i : Int))) = [] := by
    rw [List.filter_eq_nil_iff]
    intro x hx hd
    obtain ⟨q, hq, hxq⟩ := List.mem_flatten.1 hx
    have := (List.pairwise_cons.1 hasc.2.1).1 q hq f hfp x hxq
    have hd : x.row.datum = (i : Int) := by simpa using hd
    omega
  rw [h1, h2, List.nil_append, List.append_nil, List.getD_eq_getElem?_getD, List.getElem?_eq_getElem hi]
  rfl

theorem parts_stored {calls : List History} {tables : List (List FRow)} (h : StoredSorted (Loader.init.addAll calls).rows tables) :
    Parts calls tables := by
  have hmem := stored_mem_iff h.stored
  obtain ⟨groups, hg, rfl⟩ := h
  refine ⟨?_, ?_, ?_⟩
  · rw [List.pairwise_map]
    refine (pairwise_nonempty_flatten (R := fun x y => x.row.datum < y.row.datum) hg (loader_ascending calls)).imp ?_
    intro a b hab x hx y hy
    exact hab x ((List.mergeSort_perm _ _).mem_iff.1 hx) y ((List.mergeSort_perm _ _).mem_iff.1 hy)
  · intro T hT f hf
    obtain ⟨g, hgm, rfl⟩ := List.mem_map.1 hT
    have hfg := (List.mergeSort_perm _ _).mem_iff.1 hf
    have hsub : g.Sublist (Loader.init.addAll calls).rows := by
      have h1 : g.Sublist groups.flatten := List.sublist_flatten_of_mem hgm
      rw [hg] at h1
      exact h1.trans List.filter_sublist
    have hd : ∃ j : Nat, f.row.datum = (j : Int) := by
      obtain ⟨p, hp, hfp⟩ := List.mem_flatten.1 hfg
      obtain ⟨i, hi, rfl⟩ := List.getElem_of_mem (hsub.subset hp)
      exact ⟨i, (payload_datum calls i hi f hfp).1⟩
    obtain ⟨j, hj⟩ := hd
    rw [sortBy_filter, hj, filter_group g hsub hfg hj]
    rfl
  · intro T hT f hf
    exact (hmem f).1 (List.mem_flatten.2 ⟨T, hT, hf⟩)

/-- The second list consists of tables of the first, restricted to some datums. -/
inductive Restricts : List (List FRow) → List (List FRow) → Prop where
  | nil : Restricts [] []
  | skip {T : List FRow} {l m : List (List FRow)} : Restricts l m → Restricts (T :: l) m
  | keep {T : List FRow} {l m : List (List FRow)} (D : Int → Bool) : Restricts l m →
      Restricts (T :: l) (T.filter (fun f => D f.row.datum) :: m)

theorem Restricts.nil' : ∀ l, Restricts l []
  | [] => .nil
  | _ :: l => .skip (Restricts.nil' l)

theorem Restricts.mem {l m : List (List FRow)} (h : Restricts l m) : ∀ T' ∈ m, ∃ T ∈ l, ∃ D : Int → Bool, T' = T.filter (fun f => D f.row.datum) := by
  induction h with
  | nil => simp
  | skip _ ih =>
    intro T' hT'
    obtain ⟨T, hT, D, rfl⟩ := ih T' hT'
    exact ⟨T, by simp [hT], D, rfl⟩
  | keep D _ ih =>
    intro T' hT'
    rcases List.mem_cons.1 hT' with rfl | hT'
    · exact ⟨_, by simp, D, rfl⟩
    · obtain ⟨T, hT, D, rfl⟩ := ih T' hT'
      exact ⟨T, by simp [hT], D, rfl⟩

theorem Restricts.parts {calls : List History} {l m : List (List FRow)} (h : Restricts l m) (hp : Parts calls l) : Parts calls m := by
  refine ⟨?_, ?_, ?_⟩
  · have ha := hp.asc
    clear hp
    induction h with
    | nil => exact ha
    | skip _ ih => exact ih (List.pairwise_cons.1 ha).2
    | keep D hr ih =>
      rw [List.pairwise_cons] at ha ⊢
      refine ⟨?_, ih ha.2⟩
      intro T' hT' x hx y hy
      obtain ⟨T, hT, D', rfl⟩ := hr.mem T' hT'
      exact ha.1 T hT x (List.mem_filter.1 hx).1 y (List.mem_filter.1 hy).1
  · intro T' hT' f hf
    obtain ⟨T, hT, D, rfl⟩ := h.mem T' hT'
    rw [List.mem_filter] at hf
    rw [← hp.part T hT f hf.1, List.filter_filter]
    apply List.filter_congr
    intro f' _
    by_cases he : f'.row.datum = f.row.datum
    · simp [he, hf.2]
    · simp [he]
  · intro T' hT' f hf
    obtain ⟨T, hT, D, rfl⟩ := h.mem T' hT'
    exact hp.mem T hT f (List.mem_filter.1 hf).1

theorem restricts_filter (D : Int → Bool) (l : List (List FRow)) : Restricts l (l.map (List.filter (fun f => D f.row.datum))) := by
  induction l with
  | nil => exact .nil
  | cons T l ih => exact .keep D ih

theorem restricts_page (offset limit : Nat) : ∀ (l : List (List FRow)) (prev : Nat),
    Restricts l (pageLoop (fun f : FRow => f.row.datum) offset limit l prev)
  | [], _ => .nil
  | T :: l, prev => by
    unfold pageLoop
    split
    · exact .skip (restricts_page offset limit l prev)
    · dsimp only
      split
      · exact .skip (restricts_page offset limit l _)
      · split
        · exact Restricts.nil' _
        · generalize hu : sortedUnique (T.map (fun f : FRow => f.row.datum)) = u
          exact .keep (fun d => (if prev < offset ∧ prev + u.length > offset then decide (d ≥ u.getD (offset - prev) 0) else true) &&
            (if prev < offset + limit ∧ prev + u.length > offset + limit then decide (d < u.getD (offset + limit - prev) 0) else true))
            (restricts_page offset limit l _)

theorem restricts_trans {a b c : List (List FRow)} (h1 : Restricts a b) : Restricts b c → Restricts a c := by
  intro h2
  induction h1 generalizing c with
  | nil => exact h2
  | skip _ ih => exact .skip (ih h2)
  | keep D _ ih =>
    cases h2 with
    | skip h2 => exact .skip (ih h2)
    | keep D' h2 =>
      rw [List.filter_filter]
      exact .keep (fun d => D' d && D d) (ih h2)

/-- Pages consist of whole datums. -/
theorem paginate_parts {calls : List History} {tables : List (List FRow)} (hp : Parts calls tables) (m : FRow → Bool) (D : Int → Bool)
    (hm : ∀ f ∈ (Loader.init.addAll calls).rows.flatten, m f = D f.row.datum) (limit : Option Nat) (offset : Nat) :
    Parts calls (paginate (fun f : FRow => f.row.datum) m limit offset tables) := by
  have hmap : tables.map (List.filter m) = tables.map (List.filter (fun f => D f.row.datum)) := by
    apply List.map_congr_left
    intro T hT
    apply List.filter_congr
    intro f hf
    exact hm f (hp.mem T hT f hf)
  unfold paginate
  dsimp only
  rw [hmap]
  split
  · exact (restricts_filter D tables).parts hp
  · split
    · exact ⟨List.Pairwise.nil, by simp, by simp⟩
    · exact (restricts_trans (restricts_filter D tables) (restricts_page _ _ _ _)).parts hp

/-- The datums of such tables ascend. -/
theorem keyIndex_strict {calls : List History} {tables : List (List FRow)} (hp : Parts calls tables) :
    (keyIndex (fun f : FRow => f.row.datum) tables).Pairwise (· < ·) := by
  unfold keyIndex
  rw [List.pairwise_flatMap]
  refine ⟨fun T _ => sortedUnique_strict _, ?_⟩
  refine hp.asc.imp ?_
  intro a b hab u hu v hv
  rw [mem_sortedUnique, List.mem_map] at hu hv
  obtain ⟨x, hx, rfl⟩ := hu
  obtain ⟨y, hy, rfl⟩ := hv
  exact hab x hx y hy

theorem mem_keyIndex_iff {tables : List (List FRow)} {d : Int} :
    d ∈ keyIndex (fun f : FRow => f.row.datum) tables ↔ ∃ f ∈ tables.flatten, f.row.datum = d := by
  unfold keyIndex
  simp only [List.mem_flatMap, mem_sortedUnique, List.mem_map, List.mem_flatten]
  constructor
  · rintro ⟨T, hT, f, hf, rfl⟩
    exact ⟨f, ⟨T, hT, hf⟩, rfl⟩
  · rintro ⟨f, ⟨T, hT, hf⟩, rfl⟩
    exact ⟨T, hT, f, hf, rfl⟩

/-! ## The datums -/

/-- The detection has an annotation. -/
def annotatedKeys (H : History) (k : Nat) : Bool :=
  match H[k]? with
  | some x => !x.1.gts.isEmpty || !x.1.pds.isEmpty
  | none => false

/-- The detections with an annotation that the filter keeps, in the order in which they were added. -/
def keptDatums (H : History) (D : Int → Bool) : List Nat :=
  (List.range H.length).filter (fun k => D (k : Int) && annotatedKeys H k)

/-- A page; without limit, or with limit 0, everything after the offset. -/
def pageOf (limit : Option Nat) (offset : Nat) (l : List Nat) : List Nat :=
  match limit with
  | some (n + 1) => (l.drop offset).take (n + 1)
  | _ => l.drop offset

/-- The rows of a detection, as `Payload`. -/
theorem payload_ok {calls : List History} (hH : HistoryOk calls.flatten) (hO : OneLabel calls.flatten) (hS : SizesOk (Loader.init.addAll calls))
    {k : Nat} {x : Det × (Nat → Nat → Rat)} (hk : calls.flatten[k]? = some x) :
    Payload (Loader.init.addAll calls).labels x k (gtOffset calls.flatten k) (pdOffset calls.flatten k) (payloadOf calls k) := by
  obtain ⟨_, _, hrows⟩ := C34_rows calls
  obtain ⟨payload, h1, h2⟩ := hrows k x hk
  have hx := List.mem_of_getElem? hk
  have he : payloadOf calls k = sortBy fKey payload := by
    unfold payloadOf
    rw [List.getD_eq_getElem?_getD, h1]
    rfl
  have hmem : ∀ f, f ∈ payloadOf calls k ↔ f ∈ payload := by
    intro f
    rw [he]
    exact (List.mergeSort_perm _ _).mem_iff
  refine ⟨?_, ?_, hS.labels, ?_, ?_, ?_, ?_⟩
  · intro f
    rw [hmem, h2]
  · rw [he]
    exact sortBy_sorted _ _
  · intro f hf
    exact row_labels calls payload (List.mem_of_getElem? h1) f ((hmem f).1 hf)
  · refine (loader_ok hH hS).2.subset ?_
    intro r hr
    obtain ⟨f, hf, rfl⟩ := List.mem_map.1 hr
    exact List.mem_map_of_mem (List.mem_flatten.2 ⟨payload, List.mem_of_getElem? h1, (hmem f).1 hf⟩)
  · exact hH.gtLabel x hx
  · intro a ha
    exact ⟨hO x hx a ha, by rw [(hH.pdLabel x hx a ha).2, hO x hx a ha]⟩

theorem payload_nonempty {calls : List History} (hH : HistoryOk calls.flatten) (hO : OneLabel calls.flatten)
    (hS : SizesOk (Loader.init.addAll calls)) {k : Nat} (ha : annotatedKeys calls.flatten k = true) : payloadOf calls k ≠ [] := by
  unfold annotatedKeys at ha
  cases hk : calls.flatten[k]? with
  | none => rw [hk] at ha; simp at ha
  | some x =>
    rw [hk] at ha
    have P := payload_ok hH hO hS hk
    simp only [Bool.or_eq_true, Bool.not_eq_true', List.isEmpty_eq_false_iff] at ha
    intro hnil
    rcases ha with h | h
    · obtain ⟨a, l, he⟩ := List.exists_cons_of_ne_nil h
      obtain ⟨f, hf, _⟩ := gt_row P (g := 0) (ga := a) (by rw [he]; rfl)
      rw [hnil] at hf
      simp at hf
    · obtain ⟨a, l, he⟩ := List.exists_cons_of_ne_nil h
      obtain ⟨f, hf, _⟩ := pd_row P (p := 0) (pa := a) (by rw [he]; rfl)
      rw [hnil] at hf
      simp at hf

/-- A datum has rows exactly if it has an annotation. -/
theorem rows_annotated {calls : List History} (hH : HistoryOk calls.flatten) (hO : OneLabel calls.flatten)
    (hS : SizesOk (Loader.init.addAll calls)) (d : Int) :
    (∃ f ∈ (Loader.init.addAll calls).rows.flatten, f.row.datum = d) ↔
      ∃ k : Nat, d = (k : Int) ∧ k < calls.flatten.length ∧ annotatedKeys calls.flatten k = true := by
  obtain ⟨_, hlen, hrows⟩ := C34_rows calls
  constructor
  · rintro ⟨f, hf, rfl⟩
    obtain ⟨p, hp, hfp⟩ := List.mem_flatten.1 hf
    obtain ⟨k, hk, rfl⟩ := List.getElem_of_mem hp
    have hd := payload_datum calls k hk f hfp
    refine ⟨k, hd.1, by omega, ?_⟩
    have hkx : calls.flatten[k]? = some (calls.flatten[k]'(by omega)) := List.getElem?_eq_getElem (by omega)
    have P := payload_ok hH hO hS hkx
    have hfm : f ∈ payloadOf calls k := by
      unfold payloadOf
      rw [List.getD_eq_getElem?_getD, List.getElem?_eq_getElem hk]
      exact (List.mergeSort_perm _ _).mem_iff.2 hfp
    unfold annotatedKeys
    rw [hkx]
    simp only [Bool.or_eq_true, Bool.not_eq_true', List.isEmpty_eq_false_iff]
    rcases hd.2 with h | h
    · obtain ⟨g, ga, hg, _⟩ := gt_in P hfm h
      left
      intro hn
      rw [hn] at hg
      simp at hg
    · obtain ⟨g, ga, hg, _⟩ := pd_in P hfm h
      right
      intro hn
      rw [hn] at hg
      simp at hg
  · rintro ⟨k, rfl, hk, ha⟩
    obtain ⟨f, tl, he⟩ := List.exists_cons_of_ne_nil (payload_nonempty hH hO hS ha)
    have hf : f ∈ payloadOf calls k := by rw [he]; simp
    have hkr : k < (Loader.init.addAll calls).rows.length := by omega
    unfold payloadOf at hf
    rw [List.getD_eq_getElem?_getD, List.getElem?_eq_getElem hkr] at hf
    have hf := (List.mergeSort_perm _ _).mem_iff.1 hf
    exact ⟨f, List.mem_flatten.2 ⟨_, List.getElem_mem hkr, hf⟩, (payload_datum calls k hkr f hf).1⟩

theorem keyIndex_kept {calls : List History} (hH : HistoryOk calls.flatten) (hO : OneLabel calls.flatten)
    (hS : SizesOk (Loader.init.addAll calls)) {tables : List (List FRow)} (h : StoredSorted (Loader.init.addAll calls).rows tables)
    (m : FRow → Bool) (D : Int → Bool) (hm : ∀ f ∈ (Loader.init.addAll calls).rows.flatten, m f = D f.row.datum) :
    keyIndex (fun f : FRow => f.row.datum) (tables.map (List.filter m)) = (keptDatums calls.flatten D).map (fun k : Nat => (k : Int)) := by
  have hp := parts_stored h
  have hmap : tables.map (List.filter m) = tables.map (List.filter (fun f => D f.row.datum)) := by
    apply List.map_congr_left
    intro T hT
    apply List.filter_congr
    intro f hf
    exact hm f (hp.mem T hT f hf)
  rw [hmap]
  apply strict_ext (keyIndex_strict ((restricts_filter D tables).parts hp))
  · rw [List.pairwise_map]
    unfold keptDatums
    exact (List.pairwise_lt_range.filter _).imp (fun h => by omega)
  · intro d
    rw [mem_keyIndex_iff, ← List.filter_flatten]
    simp only [List.mem_filter, List.mem_map]
    unfold keptDatums
    simp only [List.mem_filter, List.mem_range, Bool.and_eq_true]
    constructor
    · rintro ⟨f, ⟨hf, hD⟩, rfl⟩
      obtain ⟨k, hk, hl, ha⟩ := (rows_annotated hH hO hS _).1 ⟨f, (stored_mem_iff h.stored f).1 hf, rfl⟩
      exact ⟨k, ⟨hl, by rw [← hk]; exact hD, ha⟩, hk.symm⟩
    · rintro ⟨k, ⟨hl, hD, ha⟩, rfl⟩
      obtain ⟨f, hf, he⟩ := (rows_annotated hH hO hS (k : Int)).2 ⟨k, rfl, hl, ha⟩
      exact ⟨f, ⟨(stored_mem_iff h.stored f).2 hf, by rw [he]; exact hD⟩, he⟩

/-- The datums of a page. -/
theorem keyIndex_page {calls : List History} (hH : HistoryOk calls.flatten) (hO : OneLabel calls.flatten)
    (hS : SizesOk (Loader.init.addAll calls)) {tables : List (List FRow)} (h : StoredSorted (Loader.init.addAll calls).rows tables)
    (m : FRow → Bool) (D : Int → Bool) (hm : ∀ f ∈ (Loader.init.addAll calls).rows.flatten, m f = D f.row.datum)
    (limit : Option Nat) (offset : Nat) :
    keyIndex (fun f : FRow => f.row.datum) (paginate (fun f : FRow => f.row.datum) m limit offset tables)
      = (pageOf limit offset (keptDatums calls.flatten D)).map (fun k : Nat => (k : Int)) := by
  have hp := parts_stored h
  have hidx := keyIndex_kept hH hO hS h m D hm
  have hasc : (keyIndex (fun f : FRow => f.row.datum) (tables.map (List.filter m))).Pairwise (· < ·) := by
    rw [hidx, List.pairwise_map]
    unfold keptDatums
    exact (List.pairwise_lt_range.filter _).imp (fun h => by omega)
  have hpage := Verif.Cache.C08_page_content (fun f : FRow => f.row.datum) m limit offset tables (hasc.imp (fun h => ne_of_lt h))
  have hlen : (keyIndex (fun f : FRow => f.row.datum) (tables.map (List.filter m))).length ≤ tables.flatten.length :=
    (Verif.Cache.keyIndex_length_le _ _).trans (Verif.Cache.filtered_length_le m tables)
  have hwin : ((keyIndex (fun f : FRow => f.row.datum) (tables.map (List.filter m))).drop offset).take (effLimit limit tables.flatten.length)
      = (pageOf limit offset (keptDatums calls.flatten D)).map (fun k : Nat => (k : Int)) := by
    have hnone : ((keyIndex (fun f : FRow => f.row.datum) (tables.map (List.filter m))).drop offset).take tables.flatten.length
        = ((keptDatums calls.flatten D).drop offset).map (fun k : Nat => (k : Int)) := by
      rw [List.take_of_length_le (by rw [List.length_drop]; omega), hidx, List.map_drop]
    unfold pageOf effLimit
    rcases limit with _ | _ | n
    · exact hnone
    · exact hnone
    · dsimp only
      rw [hidx, ← List.map_drop, ← List.map_take]
  rw [hwin] at hpage
  apply strict_ext (keyIndex_strict (paginate_parts hp m D hm limit offset))
  · rw [← hwin]
    exact (hasc.sublist (List.drop_sublist _ _)).sublist (List.take_sublist _ _)
  · intro d
    rw [mem_keyIndex_iff, hpage]
    simp only [List.mem_filter, decide_eq_true_eq]
    constructor
    · rintro ⟨f, ⟨_, hd⟩, rfl⟩
      exact hd
    · intro hd
      have hd' := hd
      rw [← hwin] at hd'
      have hd' := List.mem_of_mem_drop (List.mem_of_mem_take hd')
      rw [mem_keyIndex_iff, ← List.filter_flatten] at hd'
      obtain ⟨f, hf, rfl⟩ := hd'
      exact ⟨f, ⟨List.mem_filter.1 hf, hd⟩, rfl⟩

/-! ## The evaluator -/

theorem mapM_flatten {α β γ : Type} (f : α → List β) (g : β → Option γ) (l : List α) :
    (l.mapM (fun a => (f a).mapM g)).map List.flatten = (l.flatMap f).mapM g := by
  induction l with
  | nil => rfl
  | cons a l ih =>
    rw [List.mapM_cons, List.flatMap_cons, List.mapM_append, ← ih]
    cases (f a).mapM g with
    | none => rfl
    | some x =>
      cases l.mapM (fun a => (f a).mapM g) with
      | none => rfl
      | some y => rfl

theorem mapM_forall₂ {α β : Type} {f : α → Option β} {R : α → β → Prop} {l : List α} (h : ∀ a ∈ l, ∃ b, f a = some b ∧ R a b) :
    ∃ out, l.mapM f = some out ∧ List.Forall₂ R l out := by
  induction l with
  | nil => exact ⟨[], rfl, .nil⟩
  | cons a l ih =>
    obtain ⟨b, hb, hr⟩ := h a (by simp)
    obtain ⟨out, ho, hf⟩ := ih (fun x hx => h x (by simp [hx]))
    exact ⟨b :: out, by rw [List.mapM_cons, hb, ho]; rfl, .cons hr hf⟩

theorem flatMap_nonempty {α β : Type} (f : List α → List β) (hf : f [] = []) (l : List (List α)) :
    (l.filter (fun t => !t.isEmpty)).flatMap f = l.flatMap f := by
  induction l with
  | nil => rfl
  | cons t l ih =>
    cases t with
    | nil => simp [hf, ih]
    | cons a t => simp [ih]

/-- The choice of pairs of a detection; it only depends on what was added. -/
def choice (calls : List History) (k : Nat) : Nat → Nat → Bool :=
  chosenPairs (payloadOf calls k) (gtOffset calls.flatten k) (pdOffset calls.flatten k)

theorem parts_owned {calls : List History} (hH : HistoryOk calls.flatten) (hS : SizesOk (Loader.init.addAll calls))
    {tables : List (List FRow)} (hp : Parts calls tables) {T : List FRow} (hT : T ∈ tables) : Owned (T.map FRow.row) := by
  refine (loader_ok hH hS).2.subset ?_
  intro r hr
  obtain ⟨f, hf, rfl⟩ := List.mem_map.1 hr
  exact List.mem_map_of_mem (hp.mem T hT f hf)

/-- The examples, for the choice of the model. -/
theorem examples_entry {calls : List History} (hH : HistoryOk calls.flatten) (hO : OneLabel calls.flatten)
    (hS : SizesOk (Loader.init.addAll calls)) {tables : List (List FRow)} (h : StoredSorted (Loader.init.addAll calls).rows tables)
    (datums : Option Expr) (D : Int → Bool)
    (hm : ∀ f ∈ (Loader.init.addAll calls).rows.flatten, datums.getD (fun _ => true) f = D f.row.datum)
    (ious scores : List Rat) (hi : ious ≠ []) (hs : scores ≠ []) (limit : Option Nat) (offset : Nat) :
    ∃ out, evalExamples tables datums ious scores limit offset = some out ∧
      List.Forall₂ (fun (y : Nat × Rat × Rat) e => ∃ x, calls.flatten[y.1]? = some x ∧ Entry x (choice calls y.1) y.2.1 y.2.2 e)
        ((pageOf limit offset (keptDatums calls.flatten D)).flatMap (fun k => ious.flatMap (fun t => scores.map (fun s => (k, t, s))))) out := by
  have hp := paginate_parts (parts_stored h) (datums.getD (fun _ => true)) D hm limit offset
  have hidx := keyIndex_page hH hO hS h (datums.getD (fun _ => true)) D hm limit offset
  unfold evalExamples
  have hne : (ious.isEmpty || scores.isEmpty) = false := by
    simp only [Bool.or_eq_false_iff, List.isEmpty_eq_false_iff]
    exact ⟨hi, hs⟩
  rw [if_neg (by rw [hne]; simp)]
  generalize paginate (fun f : FRow => f.row.datum) (datums.getD (fun _ => true)) limit offset tables = pages at hp hidx
  have hE : ∀ T ∈ pages.filter (fun t => !t.isEmpty), tableExamples T ious scores =
      ((sortedUnique (T.map (fun f => f.row.datum))).flatMap (fun d => ious.flatMap (fun t => scores.map (fun s => (t, s, d))))).mapM
        (fun y => exampleOf (payloadOf calls y.2.2.toNat) y.1 y.2.1 y.2.2) := by
    intro T hT
    have hT := (List.mem_filter.1 hT).1
    unfold tableExamples
    apply mapM_congr
    rintro ⟨t, s, d⟩ hy
    simp only [List.mem_flatMap, List.mem_map, Prod.mk.injEq, mem_sortedUnique] at hy
    obtain ⟨d', ⟨f, hf, rfl⟩, t', _, s', _, rfl, rfl, rfl⟩ := hy
    have h0 : 0 ≤ f.row.datum := by
      obtain ⟨k, hk, _⟩ := (rows_annotated hH hO hS _).1 ⟨f, hp.mem T hT f hf, rfl⟩
      omega
    dsimp only
    rw [exampleOf_datum (parts_owned hH hS hp hT) t' s' h0, hp.part T hT f hf]
  rw [mapM_congr hE, mapM_flatten, flatMap_nonempty _ (by simp [sortedUnique])]
  have hk : pages.flatMap (fun T => (sortedUnique (T.map (fun f : FRow => f.row.datum))).flatMap
      (fun d => ious.flatMap (fun t => scores.map (fun s => (t, s, d)))))
      = ((pageOf limit offset (keptDatums calls.flatten D)).flatMap (fun k => ious.flatMap (fun t => scores.map (fun s => (k, t, s))))).map
        (fun y => (y.2.1, y.2.2, (y.1 : Int))) := by
    rw [← List.flatMap_assoc]
    show (keyIndex _ pages).flatMap _ = _
    rw [hidx, List.flatMap_map, List.map_flatMap]
    congr 1
    funext k
    rw [List.map_flatMap]
    congr 1
    funext t
    rw [List.map_map]
    rfl
  rw [hk, map_mapM]
  apply mapM_forall₂
  rintro ⟨k, t, s⟩ hy
  simp only [List.mem_flatMap, List.mem_map, Prod.mk.injEq] at hy
  obtain ⟨k', hk', t', _, s', _, rfl, rfl, rfl⟩ := hy
  have hkept : k' ∈ keptDatums calls.flatten D := by
    unfold pageOf at hk'
    split at hk'
    · exact List.mem_of_mem_drop (List.mem_of_mem_take hk')
    · exact List.mem_of_mem_drop hk'
  unfold keptDatums at hkept
  rw [List.mem_filter, List.mem_range, Bool.and_eq_true] at hkept
  have hx := List.getElem?_eq_getElem hkept.1
  obtain ⟨e, he, hent⟩ := exampleOf_entry (payload_ok hH hO hS hx) (payload_nonempty hH hO hS hkept.2.2) t' s'
  exact ⟨e, he, _, hx, hent⟩

/-! ## What an entry means -/

theorem count_split {α : Type} (l : List α) (q : α → Bool) : (l.filter q).length + (l.filter (fun a => !q a)).length = l.length := by
  induction l with
  | nil => rfl
  | cons a l ih =>
    cases h : q a
    · simp [h]; omega
    · simp [h]; omega

/-- A sum of indicators. -/
theorem flatMap_one {α β : Type} (l : List α) (f : α → List β) (q : α → Bool) (h : ∀ a ∈ l, (f a).length = if q a = true then 1 else 0) :
    (l.flatMap f).length = (l.filter q).length := by
  induction l with
  | nil => rfl
  | cons a l ih =>
    rw [List.flatMap_cons, List.length_append, h a (by simp), ih (fun b hb => h b (by simp [hb]))]
    cases hq : q a
    · simp [hq]
    · simp [hq]; omega

theorem filter_atMost {n : Nat} {q : Nat → Bool} (h : ∀ a b, q a = true → q b = true → a = b) :
    ((List.range n).filter q).length = if (List.range n).any q = true then 1 else 0 := by
  split
  · rename_i ha
    obtain ⟨a, ham, ha⟩ := List.any_eq_true.1 ha
    have hnd : ((List.range n).filter q).Nodup := List.nodup_range.filter _
    have hmem : a ∈ (List.range n).filter q := List.mem_filter.2 ⟨ham, ha⟩
    have hp : ((List.range n).filter q).Perm [a] := by
      rw [List.perm_ext_iff_of_nodup hnd (List.nodup_singleton a)]
      intro b
      rw [List.mem_singleton]
      constructor
      · intro hb
        exact h b a (List.mem_filter.1 hb).2 ha
      · rintro rfl
        exact hmem
    rw [hp.length_eq]
    rfl
  · rename_i ha
    rw [List.length_eq_zero_iff, List.filter_eq_nil_iff]
    intro a ham hq
    exact ha (List.any_eq_true.2 ⟨a, ham, hq⟩)

/-- Counting pairs by rows or by columns. -/
theorem double_count (a b : List Nat) (q : Nat → Nat → Bool) :
    (a.map (fun g => (b.filter (q g)).length)).sum = (b.map (fun p => (a.filter (fun g => q g p)).length)).sum := by
  induction a with
  | nil => simp
  | cons g a ih =>
    rw [List.map_cons, List.sum_cons, ih]
    clear ih
    induction b with
    | nil => rfl
    | cons p b ih =>
      rw [List.map_cons, List.map_cons, List.sum_cons, List.sum_cons, ← ih]
      cases h : q g p
      · simp [h]; omega
      · simp [h]; omega

/-- **C59 (every annotation once).** In an entry every ground truth is in exactly one true positive or is a false negative,
and every prediction with a passing score is in exactly one true positive or is a false positive: the counts add up. -/
theorem C59_entry_counts {x : Det × (Nat → Nat → Rat)} {G : Nat → Nat → Bool} (hG : Greedy x G) {t s : Rat} {e : DetExample}
    (he : Entry x G t s e) : e.tp.length + e.fn.length = x.1.gts.length ∧
      e.tp.length + e.fp.length = ((List.range x.1.pds.length).filter (scorePasses x s)).length := by
  have h1 : e.tp.length = ((List.range x.1.gts.length).filter (fun g => (List.range x.1.pds.length).any (hit x G t s g))).length := by
    rw [he.tp]
    apply flatMap_one
    intro g _
    rw [List.length_map]
    apply filter_atMost
    intro a b ha hb
    unfold hit at ha hb
    rw [Bool.and_eq_true] at ha hb
    exact (passes_one hG ha.1 hb.1 (Or.inl rfl)).2
  have h2 : e.tp.length = ((List.range x.1.pds.length).filter (fun p => (List.range x.1.gts.length).any (fun g => hit x G t s g p))).length := by
    have : ((List.range x.1.pds.length).flatMap (fun p => (List.range x.1.gts.length).filter (fun g => hit x G t s g p))).length
        = ((List.range x.1.pds.length).filter (fun p => (List.range x.1.gts.length).any (fun g => hit x G t s g p))).length := by
      apply flatMap_one
      intro p _
      apply filter_atMost
      intro a b ha hb
      unfold hit at ha hb
      rw [Bool.and_eq_true] at ha hb
      exact (passes_one hG ha.1 hb.1 (Or.inr rfl)).1
    rw [← this, he.tp, List.length_flatMap, List.length_flatMap]
    simp only [List.length_map]
    exact double_count _ _ _
  refine ⟨?_, ?_⟩
  · rw [h1, he.fn, List.length_map, count_split, List.length_range]
  · rw [h2, he.fp, List.length_map]
    rw [← count_split ((List.range x.1.pds.length).filter (scorePasses x s))
      (fun p => (List.range x.1.gts.length).any (fun g => hit x G t s g p)), List.filter_filter, List.filter_filter]
    congr 1
    · congr 1
      apply List.filter_congr
      intro p _
      rw [Bool.eq_iff_iff, Bool.and_eq_true]
      constructor
      · intro h
        refine ⟨h, ?_⟩
        obtain ⟨g, _, hg⟩ := List.any_eq_true.1 h
        unfold hit at hg
        rw [Bool.and_eq_true] at hg
        exact (passes_chosen hg.1).2
      · exact fun h => h.1
    · congr 1
      apply List.filter_congr
      intro p _
      rw [Bool.and_comm]

/-! ## Cases -/

/-- The hypotheses hold for a sample with two detections; both are on the page. -/
example : HistoryOk sampleCalls.flatten ∧ OneLabel sampleCalls.flatten ∧ SizesOk (Loader.init.addAll sampleCalls) ∧
    (∃ tables, StoredSorted (Loader.init.addAll sampleCalls).rows tables) ∧
    pageOf (some 5) 0 (keptDatums sampleCalls.flatten (fun _ => true)) = [0, 1] ∧
    pageOf (some 1) 1 (keptDatums sampleCalls.flatten (fun _ => true)) = [1] :=
  ⟨sampleCalls_ok.1, sampleCalls_ok.2.1, sampleCalls_ok.2.2, ⟨_, storedSorted_mem _⟩, by decide +kernel, by decide +kernel⟩

/-- The second detection of the sample. -/
def sampleDet : Det × (Nat → Nat → Rat) :=
  (⟨"d1", [⟨"g0", ["a"], [], ""⟩, ⟨"g1", ["c"], [], ""⟩], [⟨"p0", ["a"], [9 / 10], ""⟩, ⟨"p1", ["b"], [8 / 10], ""⟩], ""⟩,
    fun p g => if p = 0 ∧ g = 0 then 7 / 10 else 0)

/-- A greedy choice, and an entry with a true positive, a false negative and a false positive. -/
example : sampleCalls.flatten[1]? = some sampleDet ∧ ∃ G e, Greedy sampleDet G ∧ Entry sampleDet G (1 / 2) (1 / 2) e ∧
    e.tp = [(some "g0", some "p0")] ∧ e.fn = [some "g1"] ∧ e.fp = [some "p1"] := by
  refine ⟨rfl, fun g p => decide (g = 0 ∧ p = 0), ⟨some "d1", [(some "g0", some "p0")], [some "p1"], [some "g1"], 1 / 2, 1 / 2⟩,
    ⟨?_, ?_, ?_⟩, ⟨rfl, rfl, rfl, by decide +kernel, by decide +kernel, by decide +kernel⟩, rfl, rfl, rfl⟩
  · intro g p h
    obtain ⟨rfl, rfl⟩ := of_decide_eq_true h
    exact ⟨by decide, by decide, by decide +kernel⟩
  · intro g p g' p' h h' _
    obtain ⟨rfl, rfl⟩ := of_decide_eq_true h
    obtain ⟨rfl, rfl⟩ := of_decide_eq_true h'
    exact ⟨rfl, rfl⟩
  · intro g ga p pa hg hp he
    by_cases hc : p = 0 ∧ g = 0
    · obtain ⟨rfl, rfl⟩ := hc
      exact ⟨0, 0, pa, rfl, hp, Or.inl rfl, Or.inr ⟨rfl, le_refl _⟩⟩
    · unfold sampleDet at he
      simp only [hc, if_false] at he
      exact absurd he (by decide +kernel)

/-- One ground truth and one prediction with two labels, of which the first is right. -/
def twoLabelCall : List History :=
  [[(⟨"d", [⟨"g", ["a"], [], ""⟩], [⟨"p", ["a", "b"], [9 / 10, 3 / 10], ""⟩], ""⟩, fun _ _ => 8 / 10)]]

theorem twoLabelCall_rows : (Loader.init.addAll twoLabelCall).rows.flatten = sortBy fKey (Loader.init.addAll twoLabelCall).rows.flatten := by
  unfold sortBy
  rw [List.mergeSort_of_pairwise]
  decide +kernel

/-- **C59 fails for predictions with several labels.** The same pair is a true positive, a false negative and a false
positive: the example names the ground truth and the prediction in all three lists, so that the counts do not add up to one
ground truth. -/
theorem C59_multi_label_violation : ∃ (calls : List History) (tables : List (List FRow)) (e : DetExample),
    HistoryOk calls.flatten ∧ SizesOk (Loader.init.addAll calls) ∧ StoredSorted (Loader.init.addAll calls).rows tables ∧
    evalExamples tables none [1 / 2] [1 / 10] none 0 = some [e] ∧
    e.tp = [(some "g", some "p")] ∧ e.fn = [some "g"] ∧ e.fp = [some "p"] ∧
    ∀ x ∈ calls.flatten, e.tp.length + e.fn.length ≠ x.1.gts.length := by
  refine ⟨twoLabelCall, [(Loader.init.addAll twoLabelCall).rows.flatten], ⟨some "d", [(some "g", some "p")], [some "p"], [some "g"], 1 / 2, 1 / 10⟩,
    ?_, ⟨by decide +kernel, by decide +kernel, by decide +kernel, by decide +kernel⟩, ?_, ?_, rfl, rfl, rfl, ?_⟩
  · refine ⟨by simp [twoLabelCall], by simp [twoLabelCall], ?_⟩
    intro x hx p g
    simp only [twoLabelCall, List.flatten_cons, List.flatten_nil, List.append_nil, List.mem_cons, List.not_mem_nil, or_false] at hx
    subst hx
    dsimp only
    constructor <;> norm_num
  · have := storedSorted_mem (Loader.init.addAll twoLabelCall).rows
    rw [← twoLabelCall_rows] at this
    exact this
  · decide +kernel
  · intro x hx
    simp only [twoLabelCall, List.flatten_cons, List.flatten_nil, List.append_nil, List.mem_cons, List.not_mem_nil, or_false] at hx
    subst hx
    simp

end Verif.Detection
