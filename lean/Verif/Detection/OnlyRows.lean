import Verif.Detection.NearestProps
import Verif.Detection.ComposeProps

/-!
# Which rows are chosen depends on the pairs and on the predictions alone

Lemmas for C122. A filtered cache can hold rows of a prediction without ground truth beside rows with ground truths, and in another order than
the loader would write them. Neither changes which row of a prediction is chosen.
-/

namespace Verif.Detection

open Verif.Cache (sortBy SortedBy StableOf sorted_stable_unique sortBy_sorted sortBy_stable)

/-- The order of the rows of a prediction that are ranked equal. -/
def Up (a b : Row) : Prop := 0 ≤ a.pd → rankKey a = rankKey b → pdKey a = pdKey b → a.gt ≤ b.gt

/-- What is known of the rows of a cache before and after a filter. -/
structure Tidy (rows : List Row) : Prop where
  ok : ∀ r ∈ rows, RowOk r
  gl : ∀ x ∈ rows, ∀ y ∈ rows, 0 ≤ x.gt → x.gt = y.gt → x.gl = y.gl
  lone : ∀ r ∈ rows, r.gt < 0 → r.gt = -1 ∧ r.iou = 0
  pair : ∀ r ∈ rows, 0 ≤ r.gt → 0 ≤ r.pd → 0 < r.iou
  score : ∀ x ∈ rows, ∀ y ∈ rows, 0 ≤ x.pd → pdKey x = pdKey y → x.score = y.score
  asc : rows.Pairwise Up

/-- The row that stands for a prediction label, in terms of the set of the rows. -/
structure Stands (rows : List Row) (r : Row) : Prop where
  mem : r ∈ rows
  pd : 0 ≤ r.pd
  kept : Matches r ∨ ∀ c ∈ rows, c.pd = r.pd → ¬ Matches c
  best : ∀ c ∈ rows, pdKey c = pdKey r → (Matches c ∨ ∀ e ∈ rows, e.pd = c.pd → ¬ Matches e) →
    rankKey r < rankKey c ∨ (rankKey r = rankKey c ∧ r.gt ≤ c.gt)

theorem sorted_up {rows : List Row} (h : rows.Pairwise Up) : (sortBy rankKey rows).Pairwise Up := by
  rw [List.pairwise_iff_forall_sublist] at h ⊢
  intro a b hab hp hk
  have hs : [a, b].Sublist rows := by
    have h1 := hab.filter (fun x => decide (rankKey x = rankKey b))
    have e1 : [a, b].filter (fun x => decide (rankKey x = rankKey b)) = [a, b] := by simp [hk]
    have e2 : (sortBy rankKey rows).filter (fun x => decide (rankKey x = rankKey b)) = rows.filter (fun x => decide (rankKey x = rankKey b)) := by
      convert sortBy_stable rankKey rows (rankKey b)
    rw [e1, e2] at h1
    exact h1.trans List.filter_sublist
  exact h hs hp hk

theorem Tidy.eq {rows : List Row} (h : Tidy rows) {r c : Row} (hr : r ∈ rows) (hc : c ∈ rows) (hk : rankKey r = rankKey c) (hp : pdKey r = pdKey c)
    (hg : r.gt = c.gt) : r = c := by
  have hgl : r.gl = c.gl := by
    by_cases h0 : 0 ≤ r.gt
    · exact h.gl r hr c hc h0 hg
    · rw [(h.ok r hr).2 (by omega), (h.ok c hc).2 (by omega)]
  obtain ⟨p1, p2, p3⟩ := pdKey_iff.1 hp
  unfold rankKey at hk
  simp only [List.cons.injEq, neg_inj, and_true] at hk
  cases r
  cases c
  simp_all

theorem Tidy.stands {rows : List Row} (h : Tidy rows) {r : Row} : r ∈ chosen rows ↔ Stands rows r := by
  have hok' : ∀ r ∈ sortBy rankKey rows, RowOk r := fun r hr => h.ok r (mem_sortBy.1 hr)
  have hmk : ∀ r, r ∈ kept (sortBy rankKey rows) ↔ r ∈ rows ∧ 0 ≤ r.pd ∧ (Matches r ∨ ∀ c ∈ rows, c.pd = r.pd → ¬ Matches c) := by
    intro r
    rw [mem_kept hok', mem_sortBy]
    simp only [mem_sortBy]
  have hsub : (kept (sortBy rankKey rows)).Sublist (sortBy rankKey rows) := by
    unfold kept
    exact (List.filter_sublist).trans List.filter_sublist
  have hto : ∀ r, r ∈ chosen rows → Stands rows r := by
    intro r hr
    have hk := (hmk r).1 (uniqueFirst_mem hr)
    refine ⟨hk.1, hk.2.1, hk.2.2, ?_⟩
    intro c hc hp hm
    have hck : c ∈ kept (sortBy rankKey rows) := (hmk c).2 ⟨hc, by rw [(pdKey_iff.1 hp).2.1]; exact hk.2.1, hm⟩
    have hf := mem_uniqueFirst.1 hr
    rw [List.find?_eq_some_iff_append] at hf
    obtain ⟨_, as, bs, he, hn⟩ := hf
    rw [he, List.mem_append] at hck
    rcases hck with hck | hck
    · have := hn c hck
      simp [hp] at this
    · rcases List.mem_cons.1 hck with rfl | hck
      · exact Or.inr ⟨rfl, le_refl _⟩
      · have hpair : [r, c].Sublist (kept (sortBy rankKey rows)) := by
          rw [he]
          exact ((List.singleton_sublist.2 hck).cons_cons r).trans (List.sublist_append_right _ _)
        have h1 := (List.pairwise_iff_forall_sublist.1 (sortBy_sorted rankKey rows)) (hpair.trans hsub)
        have h2 := (List.pairwise_iff_forall_sublist.1 (sorted_up h.asc)) (hpair.trans hsub)
        rcases lt_or_eq_of_le h1 with h3 | h3
        · exact Or.inl h3
        · exact Or.inr ⟨h3, h2 hk.2.1 h3 hp.symm⟩
  constructor
  · exact hto r
  · intro hs
    have hrk := (hmk r).2 ⟨hs.mem, hs.pd, hs.kept⟩
    cases hf : (kept (sortBy rankKey rows)).find? (fun x => decide (pdKey x = pdKey r)) with
    | none =>
      rw [List.find?_eq_none] at hf
      simpa using hf r hrk
    | some q =>
      have hq := List.find?_some hf
      have hqr : pdKey q = pdKey r := by simpa using hq
      have hqc : q ∈ chosen rows := by
        unfold chosen
        rw [mem_uniqueFirst, hqr]
        exact hf
      have hsq := hto q hqc
      have b1 := hs.best q hsq.mem hqr hsq.kept
      have b2 := hsq.best r hs.mem hqr.symm hs.kept
      have hkey : rankKey r = rankKey q ∧ r.gt = q.gt := by
        rcases b1 with b1 | ⟨b1, c1⟩
        · rcases b2 with b2 | ⟨b2, _⟩
          · exact absurd b1 (lt_asymm b2)
          · exact absurd b1 (by rw [b2]; exact lt_irrefl _)
        · rcases b2 with b2 | ⟨_, c2⟩
          · exact absurd b2 (by rw [b1]; exact lt_irrefl _)
          · exact ⟨b1, le_antisymm c1 c2⟩
      have := h.eq hs.mem hsq.mem hkey.1 hqr.symm hkey.2
      rw [this]
      exact hqc

/-- Two caches with the same pairs and the same annotations. -/
structure SameRows (a b : List Row) : Prop where
  pairs : ∀ r, 0 ≤ r.gt → 0 ≤ r.pd → r ∈ a → r ∈ b
  pds : ∀ r ∈ a, 0 ≤ r.pd → ∃ r' ∈ b, pdKey r' = pdKey r ∧ r'.score = r.score
  gts : ∀ r ∈ a, 0 ≤ r.gt → ∃ r' ∈ b, r'.gt = r.gt ∧ r'.gl = r.gl ∧ r'.datum = r.datum

theorem rank_lt {r c : Row} (hs : r.score = c.score) (hi : c.iou < r.iou) : rankKey r < rankKey c := by
  unfold rankKey
  rw [hs, List.cons_lt_cons_iff]
  right
  refine ⟨rfl, ?_⟩
  rw [List.cons_lt_cons_iff]
  left
  linarith

theorem Stands.move {a b : List Row} (ha : Tidy a) (hb : Tidy b) (hab : SameRows a b) (hba : SameRows b a) {r : Row} (h : Stands a r) : Stands b r := by
  have hmatch : ∀ c, 0 ≤ c.pd → Matches c → (c ∈ a ↔ c ∈ b) := fun c h0 hm => ⟨hab.pairs c hm.1 h0, hba.pairs c hm.1 h0⟩
  have hno : ∀ {p : Int}, 0 ≤ p → ((∀ c ∈ a, c.pd = p → ¬ Matches c) ↔ ∀ c ∈ b, c.pd = p → ¬ Matches c) := by
    intro p h0
    constructor
    · intro h c hc hp hm
      exact h c ((hmatch c (by omega) hm).2 hc) hp hm
    · intro h c hc hp hm
      exact h c ((hmatch c (by omega) hm).1 hc) hp hm
  by_cases hg : 0 ≤ r.gt
  · have hrb := hab.pairs r hg h.pd h.mem
    refine ⟨hrb, h.pd, ?_, ?_⟩
    · exact h.kept.imp id (hno h.pd).1
    · intro c hc hp hk
      have hcp : 0 ≤ c.pd := by rw [(pdKey_iff.1 hp).2.1]; exact h.pd
      by_cases hcg : 0 ≤ c.gt
      · exact h.best c (hba.pairs c hcg hcp hc) hp (hk.imp id (hno hcp).2)
      · left
        apply rank_lt (hb.score r hrb c hc h.pd hp.symm)
        rw [(hb.lone c hc (by omega)).2]
        exact hb.pair r hrb hg h.pd
  · have hnm : ¬ Matches r := fun hm => hg hm.1
    have hnone : ∀ c ∈ a, c.pd = r.pd → ¬ Matches c := h.kept.resolve_left hnm
    have hlone : ∀ c ∈ a, pdKey c = pdKey r → c.gt < 0 := by
      intro c hc hp
      by_contra hcg
      have hcp : 0 ≤ c.pd := by rw [(pdKey_iff.1 hp).2.1]; exact h.pd
      have hlt : rankKey c < rankKey r := by
        apply rank_lt (ha.score c hc r h.mem hcp hp)
        rw [(ha.lone r h.mem (by omega)).2]
        exact ha.pair c hc (by omega) hcp
      rcases h.best c hc hp (Or.inr (by rw [(pdKey_iff.1 hp).2.1]; exact hnone)) with h1 | ⟨h1, _⟩
      · exact lt_asymm h1 hlt
      · rw [h1] at hlt
        exact lt_irrefl _ hlt
    have hloneb : ∀ c ∈ b, pdKey c = pdKey r → c = r := by
      intro c hc hp
      have hcp : 0 ≤ c.pd := by rw [(pdKey_iff.1 hp).2.1]; exact h.pd
      have hcg : c.gt < 0 := by
        by_contra hcg
        have := hlone c (hba.pairs c (by omega) hcp hc) hp
        omega
      obtain ⟨c', hc', hp', hs'⟩ := hba.pds c hc hcp
      have hsc : c.score = r.score := by rw [← hs']; exact ha.score c' hc' r h.mem (by rw [(pdKey_iff.1 hp').2.1]; exact hcp) (hp'.trans hp)
      obtain ⟨p1, p2, p3⟩ := pdKey_iff.1 hp
      have e1 := hb.lone c hc hcg
      have e2 := ha.lone r h.mem (by omega)
      have e3 := (hb.ok c hc).2 hcg
      have e4 := (ha.ok r h.mem).2 (by omega)
      cases r
      cases c
      simp_all
    obtain ⟨r', hr', hp', _⟩ := hab.pds r h.mem h.pd
    have hrr := hloneb r' hr' hp'
    subst hrr
    refine ⟨hr', h.pd, Or.inr ((hno h.pd).1 hnone), ?_⟩
    intro c hc hp _
    have := hloneb c hc hp
    subst this
    exact Or.inr ⟨rfl, le_refl _⟩

/-- The chosen rows of two such caches are the same. -/
theorem chosen_same {a b : List Row} (ha : Tidy a) (hb : Tidy b) (hab : SameRows a b) (hba : SameRows b a) : (chosen a).Perm (chosen b) := by
  rw [List.perm_ext_iff_of_nodup (chosen_nodup a) (chosen_nodup b)]
  intro r
  rw [ha.stands, hb.stands]
  exact ⟨fun h => h.move ha hb hab hba, fun h => h.move hb ha hba hab⟩

/-- So are the counts. -/
theorem counts_same {a b : List Row} (ha : Tidy a) (hb : Tidy b) (hab : SameRows a b) (hba : SameRows b a) (t s : Rat) (l : Int) :
    gtOf l a = gtOf l b ∧ foundOf t s l a = foundOf t s l b ∧ activeOf s l a = activeOf s l b := by
  have hp := chosen_same ha hb hab hba
  refine ⟨?_, ?_, ?_⟩
  · unfold gtOf
    apply distinct_perm
    have key : ∀ {a b : List Row}, SameRows a b → ∀ v, v ∈ (a.filter (fun r => decide (0 ≤ r.gt ∧ r.gl = l))).map Row.gt →
        v ∈ (b.filter (fun r => decide (0 ≤ r.gt ∧ r.gl = l))).map Row.gt := by
      intro a b h v hv
      simp only [List.mem_map, List.mem_filter, decide_eq_true_eq] at hv ⊢
      obtain ⟨r, ⟨hr, h0, hl⟩, rfl⟩ := hv
      obtain ⟨r', hr', e1, e2, _⟩ := h.gts r hr h0
      exact ⟨r', ⟨hr', by rw [e1]; exact h0, by rw [e2]; exact hl⟩, e1⟩
    exact fun v => ⟨key hab v, key hba v⟩
  · unfold foundOf
    split
    · exact distinct_perm (fun v => ((hp.filter _).map _).mem_iff)
    · rfl
  · unfold activeOf
    exact (hp.filter _).length_eq

end Verif.Detection
