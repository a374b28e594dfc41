import Verif.Classification.Pairs
import Verif.Classification.MetricsProps

/-! # Lemmas about pair classifications, confusion matrices and examples -/

namespace Verif.Classification

/-! ## Generic -/

theorem mapM_option {α β : Type} {f : α → Option β} : ∀ {l : List α} {R : List β},
    l.mapM f = some R → R.length = l.length ∧
      ∀ (k : Nat) (x : α), l[k]? = some x → ∃ y, R[k]? = some y ∧ f x = some y := by
  intro l
  induction l with
  | nil => intro R h; simp only [List.mapM_nil, Option.pure_def, Option.some.injEq] at h; subst h; simp
  | cons a l ih =>
    intro R h
    rw [List.mapM_cons] at h
    cases ha : f a with
    | none => rw [ha] at h; exact absurd h (by simp)
    | some b =>
      cases hl : l.mapM f with
      | none => rw [ha, hl] at h; exact absurd h (by simp)
      | some bs =>
        rw [ha, hl] at h
        simp only [Option.pure_def, Option.bind_eq_bind, Option.bind_some, Option.some.injEq] at h
        subst h
        obtain ⟨i1, i2⟩ := ih hl
        refine ⟨by simp [i1], ?_⟩
        intro k x hk
        cases k with
        | zero =>
          simp only [List.getElem?_cons_zero, Option.some.injEq] at hk
          subst hk
          exact ⟨b, by simp, ha⟩
        | succ k =>
          rw [List.getElem?_cons_succ] at hk ⊢
          exact i2 k x hk

/-- A fold over lists that works position by position. -/
theorem foldlM_component {F A : Type} {S : List A → F → Option (List A)} {s : A → F → Option A} {k : Nat}
    (hS : ∀ acc f acc', S acc f = some acc' → ∀ a, acc[k]? = some a →
      ∃ a', acc'[k]? = some a' ∧ s a f = some a') :
    ∀ (fs : List F) (acc R : List A) (a : A), fs.foldlM S acc = some R → acc[k]? = some a →
      ∃ r, R[k]? = some r ∧ fs.foldlM s a = some r := by
  intro fs
  induction fs with
  | nil =>
    intro acc R a h ha
    simp only [List.foldlM_nil, Option.pure_def, Option.some.injEq] at h
    subst h
    exact ⟨a, ha, rfl⟩
  | cons f fs ih =>
    intro acc R a h ha
    rw [List.foldlM_cons] at h
    cases hs : S acc f with
    | none => rw [hs] at h; exact absurd h (by simp)
    | some acc' =>
      rw [hs] at h
      obtain ⟨a', h1, h2⟩ := hS acc f acc' hs a ha
      obtain ⟨r, h3, h4⟩ := ih acc' R a' h h1
      refine ⟨r, h3, ?_⟩
      rw [List.foldlM_cons, h2]
      exact h4

theorem foldlM_single {F A : Type} {S : List A → F → Option (List A)} {s : A → F → Option A}
    (hS : ∀ a f, S [a] f = (s a f).map (fun x => [x])) :
    ∀ (fs : List F) (a : A), fs.foldlM S [a] = (fs.foldlM s a).map (fun x => [x]) := by
  intro fs
  induction fs with
  | nil => intro a; rfl
  | cons f fs ih =>
    intro a
    rw [List.foldlM_cons, List.foldlM_cons, hS]
    cases s a f with
    | none => rfl
    | some a' => exact ih a'

/-! ## Thresholds -/

/-- Passing all the thresholds in `T`. -/
def passMask (T : List Rat) (h : Bool) (r : Row) : Bool :=
  decide (r.score > 1 / 1000000000) && T.all (fun t => decide (r.score ≥ t)) && (!h || r.winner)

/-- The non-empty prefixes. -/
def prefixes (ts : List Rat) : List (List Rat) := (List.range ts.length).map (fun k => ts.take (k + 1))

theorem scoreMasks_eq (h : Bool) (ts : List Rat) : ∀ m : Row → Bool,
    scoreMasks h ts m = (List.range ts.length).map (fun k => fun r : Row =>
      m r && (ts.take (k + 1)).all (fun t => decide (r.score ≥ t)) && (!h || r.winner)) := by
  induction ts with
  | nil => intro m; rfl
  | cons t ts ih =>
    intro m
    rw [scoreMasks, List.length_cons, List.range_succ_eq_map, List.map_cons, List.map_map, ih]
    congr 1
    · funext r; simp
    · apply List.map_congr_left
      intro k _
      funext r
      simp only [Function.comp_apply, List.take_succ_cons, List.all_cons]
      cases m r <;> cases decide (r.score ≥ t) <;> cases (!h || r.winner) <;> simp

theorem pairMasks_eq (rows : List Row) (ts : List Rat) (h : Bool) :
    pairMasks rows ts h = (prefixes ts).map (fun T => masksOf rows (passMask T h)) := by
  unfold pairMasks prefixes
  rw [scoreMasks_eq, List.map_map, List.map_map]
  rfl

/-- Only the largest threshold of a prefix matters. -/
theorem passMask_max {T : List Rat} {m : Rat} (h1 : m ∈ T) (h2 : ∀ x ∈ T, x ≤ m) (h : Bool) :
    passMask T h = passMask [m] h := by
  funext r
  unfold passMask
  congr 2
  rw [Bool.eq_iff_iff, List.all_eq_true, List.all_eq_true]
  simp only [decide_eq_true_eq, ge_iff_le]
  constructor
  · intro hT x hx
    rw [List.mem_singleton] at hx
    subst hx
    exact hT x h1
  · intro hm x hx
    exact le_trans (h2 x hx) (hm m (by simp))

theorem prefixes_get {ts : List Rat} {k : Nat} (hk : k < ts.length) :
    (prefixes ts)[k]? = some (ts.take (k + 1)) := by
  unfold prefixes
  rw [List.getElem?_map, List.getElem?_range hk]
  rfl

/-! ## Confusion matrix -/

/-- Cell of the matrix. -/
def cmC (rows : List Row) (T : List Rat) (h : Bool) (g p : Int) : Nat :=
  dc rows (passMask T h) (fun r => (r.gt, r.pd)) (g, p)

/-- Unmatched ground truths. -/
def cmU (rows : List Row) (T : List Rat) (h : Bool) (g : Int) : Nat :=
  dc rows (masksOf rows (passMask T h)).unmatched Row.gt g

/-- The matrix as a table of functions. -/
def cmTab (n : Nat) (C : Int → Int → Nat) (U : Int → Nat) : CM :=
  ⟨(List.range n).map (fun g : Nat => (List.range n).map (fun p : Nat => C g p)),
   (List.range n).map (fun g : Nat => U g)⟩

theorem cmTab_add (n : Nat) (C C' : Int → Int → Nat) (U U' : Int → Nat) :
    (cmTab n C U).add (cmTab n C' U') = cmTab n (fun g p => C g p + C' g p) (fun g => U g + U' g) := by
  simp only [cmTab, CM.add, CM.mk.injEq]
  constructor
  · rw [List.zipWith_map_left, List.zipWith_map_right, List.zipWith_self]
    apply List.map_congr_left
    intro g _
    rw [List.zipWith_map_left, List.zipWith_map_right, List.zipWith_self]
  · rw [List.zipWith_map_left, List.zipWith_map_right, List.zipWith_self]

theorem matched_eq (rows : List Row) (m : Row → Bool) :
    (fun r => (masksOf rows m).tp r || (masksOf rows m).misclf r) = m := by
  funext r
  simp only [masksOf]
  cases labelMatch r <;> cases m r <;> rfl

theorem okIds_of {n : Nat} {xs : List Int} (h : ∀ x ∈ xs, 0 ≤ x ∧ x < n) : okIds n xs = true := by
  unfold okIds
  rw [List.all_eq_true]
  intro x hx
  have := h x hx
  simp [this.1, this.2]

theorem cmOf_eq {rows : List Row} {n : Nat} (hr : InRange rows n) (T : List Rat) (h : Bool) :
    cmOf rows n (masksOf rows (passMask T h)) = some (cmTab n (cmC rows T h) (cmU rows T h)) := by
  unfold cmOf
  rw [matched_eq]
  dsimp only
  rw [if_pos]
  · have e : ∀ (l : List (Int × Int)) (x : Int × Int), List.count x l
        = @List.count _ instBEqOfDecidableEq x l := by
      intro l x
      unfold List.count
      apply List.countP_congr
      intro y _
      simp
    simp only [e]
    rfl
  · rw [Bool.and_eq_true, Bool.and_eq_true]
    refine ⟨⟨okIds_of ?_, okIds_of ?_⟩, okIds_of ?_⟩
    · intro x hx
      simp only [List.mem_map, unique, List.mem_dedup, List.mem_filter] at hx
      obtain ⟨_, ⟨_, ⟨r, ⟨hr', _⟩, rfl⟩, rfl⟩, rfl⟩ := hx
      exact (hr r hr').1
    · intro x hx
      simp only [List.mem_map, unique, List.mem_dedup, List.mem_filter] at hx
      obtain ⟨_, ⟨_, ⟨r, ⟨hr', _⟩, rfl⟩, rfl⟩, rfl⟩ := hx
      exact (hr r hr').2
    · intro x hx
      simp only [List.mem_map, unique, List.mem_dedup, List.mem_filter] at hx
      obtain ⟨_, ⟨r, ⟨hr', _⟩, rfl⟩, rfl⟩ := hx
      exact (hr r hr').1

theorem dc_congr {β : Type} [DecidableEq β] {rows : List Row} {m m' : Row → Bool}
    (h : ∀ r ∈ rows, m r = m' r) (f : Row → β) (l : β) : dc rows m f l = dc rows m' f l := by
  unfold dc
  rw [List.filter_congr h]

theorem unmatched_append_left {a b : List Row} (h : ∀ x ∈ a, ∀ y ∈ b, x.datum ≠ y.datum)
    (m : Row → Bool) : ∀ r ∈ a, (masksOf (a ++ b) m).unmatched r = (masksOf a m).unmatched r := by
  intro r hr
  simp only [masksOf, List.any_append]
  have : b.any (fun r' => m r' && (r'.datum == r.datum && r'.gt == r.gt)) = false := by
    rw [List.any_eq_false]
    intro y hy hc
    simp only [Bool.and_eq_true, beq_iff_eq] at hc
    exact h r hr y hy hc.2.1.symm
  rw [this, Bool.or_false]

theorem unmatched_append_right {a b : List Row} (h : ∀ x ∈ a, ∀ y ∈ b, x.datum ≠ y.datum)
    (m : Row → Bool) : ∀ r ∈ b, (masksOf (a ++ b) m).unmatched r = (masksOf b m).unmatched r := by
  intro r hr
  simp only [masksOf, List.any_append]
  have : a.any (fun r' => m r' && (r'.datum == r.datum && r'.gt == r.gt)) = false := by
    rw [List.any_eq_false]
    intro y hy hc
    simp only [Bool.and_eq_true, beq_iff_eq] at hc
    exact h y hy r hr hc.2.1
  rw [this, Bool.false_or]

theorem cmC_append {a b : List Row} (hd : ∀ x ∈ a, ∀ y ∈ b, x.datum ≠ y.datum) (T : List Rat) (h : Bool)
    (g p : Int) : cmC (a ++ b) T h g p = cmC a T h g p + cmC b T h g p := dc_append hd _ _ _

theorem cmU_append {a b : List Row} (hd : ∀ x ∈ a, ∀ y ∈ b, x.datum ≠ y.datum) (T : List Rat) (h : Bool)
    (g : Int) : cmU (a ++ b) T h g = cmU a T h g + cmU b T h g := by
  unfold cmU
  rw [dc_append hd, dc_congr (unmatched_append_left hd _), dc_congr (unmatched_append_right hd _)]

theorem masksOf_perm {a b : List Row} (hp : a.Perm b) (m : Row → Bool) : masksOf a m = masksOf b m := by
  simp only [masksOf, PairMasks.mk.injEq, true_and]
  funext r
  congr 1
  rw [Bool.eq_iff_iff, List.any_eq_true, List.any_eq_true]
  constructor
  · rintro ⟨x, hx, h⟩; exact ⟨x, hp.subset hx, h⟩
  · rintro ⟨x, hx, h⟩; exact ⟨x, hp.symm.subset hx, h⟩

theorem cmC_perm {a b : List Row} (hp : a.Perm b) (T : List Rat) (h : Bool) (g p : Int) :
    cmC a T h g p = cmC b T h g p := dc_perm hp _ _ _

theorem cmU_perm {a b : List Row} (hp : a.Perm b) (T : List Rat) (h : Bool) (g : Int) :
    cmU a T h g = cmU b T h g := by
  unfold cmU
  rw [masksOf_perm hp, dc_perm hp]

theorem cmTab_zero (n : Nat) : CM.zero n = cmTab n (fun _ _ => 0) (fun _ => 0) := by
  simp [CM.zero, cmTab]

theorem foldlM_cm (n : Nat) (ts : List Rat) (h : Bool) (frags : List (List Row)) :
    ∀ (pre : List Row), (∀ f ∈ frags, InRange f n) →
      (∀ f ∈ frags, ∀ x ∈ pre, ∀ y ∈ f, x.datum ≠ y.datum) →
      frags.Pairwise (fun a b => ∀ x ∈ a, ∀ y ∈ b, x.datum ≠ y.datum) →
      frags.foldlM (fun acc f => ((pairMasks f ts h).mapM (cmOf f n)).map (List.zipWith CM.add acc))
        ((prefixes ts).map (fun T => cmTab n (cmC pre T h) (cmU pre T h)))
      = some ((prefixes ts).map (fun T =>
          cmTab n (cmC (pre ++ frags.flatten) T h) (cmU (pre ++ frags.flatten) T h))) := by
  induction frags with
  | nil => intro pre _ _ _; simp
  | cons f fs ih =>
    intro pre hin hpre hp
    rw [List.pairwise_cons] at hp
    have e : (pairMasks f ts h).mapM (cmOf f n)
        = some ((prefixes ts).map (fun T => cmTab n (cmC f T h) (cmU f T h))) := by
      rw [pairMasks_eq]
      have := mapM_some (fun T => cmOf f n (masksOf f (passMask T h)))
        (fun T => cmTab n (cmC f T h) (cmU f T h)) (prefixes ts) (fun T _ => cmOf_eq (hin f (by simp)) T h)
      rw [← this, List.mapM_map]
      rfl
    rw [List.foldlM_cons, e]
    simp only [Option.map_some, Option.bind_eq_bind, Option.bind_some]
    rw [List.zipWith_map_left, List.zipWith_map_right, List.zipWith_self]
    have hd : ∀ x ∈ pre, ∀ y ∈ f, x.datum ≠ y.datum := hpre f (by simp)
    simp only [cmTab_add, ← cmC_append hd, ← cmU_append hd]
    have := ih (pre ++ f) (fun g hg => hin g (by simp [hg])) (by
      intro g hg x hx y hy
      rcases List.mem_append.1 hx with hx | hx
      · exact hpre g (by simp [hg]) x hx y hy
      · exact hp.1 g hg x hx y hy) hp.2
    rw [this]
    simp

theorem evalCM_eq {frags : List (List Row)} {rows : List Row} {n : Nat} (hr : InRange rows n)
    (hf : FragmentsOf frags rows) {ts : List Rat} (hts : ts ≠ []) (h : Bool) :
    evalCM frags ts h n = some ((prefixes ts).map (fun T => cmTab n (cmC rows T h) (cmU rows T h))) := by
  unfold evalCM
  rw [if_neg (by simpa using hts)]
  have h0 : ts.map (fun _ => CM.zero n)
      = (prefixes ts).map (fun T => cmTab n (cmC [] T h) (cmU [] T h)) := by
    rw [List.map_const', cmTab_zero]
    have : (fun T : List Rat => cmTab n (cmC [] T h) (cmU [] T h))
        = fun _ => cmTab n (fun _ _ => 0) (fun _ => 0) := by
      funext T; rfl
    rw [this, List.map_const']
    simp [prefixes]
  rw [h0, foldlM_cm n ts h frags [] ?_ (by simp) hf.aligned]
  · simp only [List.nil_append]
    congr 1
    apply List.map_congr_left
    intro T _
    congr 1
    · funext g p; exact cmC_perm hf.perm T h g p
    · funext g; exact cmU_perm hf.perm T h g
  · intro f hf' r hr'
    exact hr r (hf.perm.subset (List.mem_flatten.2 ⟨f, hf', hr'⟩))

end Verif.Classification
