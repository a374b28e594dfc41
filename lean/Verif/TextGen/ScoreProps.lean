import Verif.TextGen.TextProps
import Verif.TextGen.PrecisionProps

/-!
# C42: what an LLM guided score is, and its range

Every theorem quantifies over all worlds: the LLM, the JSON library and the digit table are arbitrary.
-/

namespace Verif.TextGen

variable {σ : Type} {α β : Type}

/-! ## Running -/

theorem bind_ok (m : Run σ α) (f : α → Run σ β) (s s' : σ) (b : β) :
    (m >>= f) s = (.ok b, s') ↔ ∃ a s1, m s = (.ok a, s1) ∧ f a s1 = (.ok b, s') := by
  change (match m s with | (.ok a, s') => f a s' | (.error e, s') => (.error e, s')) = _ ↔ _
  rcases h : m s with ⟨r, s1⟩
  cases r with
  | ok a =>
    simp only [Prod.mk.injEq, Except.ok.injEq]
    constructor
    · intro h2; exact ⟨a, s1, ⟨rfl, rfl⟩, h2⟩
    · rintro ⟨a', s1', ⟨rfl, rfl⟩, h2⟩; exact h2
  | error e => simp

theorem bind_error (m : Run σ α) (f : α → Run σ β) (s s' : σ) (e : PyErr) :
    (m >>= f) s = (.error e, s') ↔
      m s = (.error e, s') ∨ ∃ a s1, m s = (.ok a, s1) ∧ f a s1 = (.error e, s') := by
  change (match m s with | (.ok a, s') => f a s' | (.error e, s') => (.error e, s')) = _ ↔ _
  rcases h : m s with ⟨r, s1⟩
  cases r with
  | ok a =>
    simp only [Prod.mk.injEq, Except.ok.injEq, reduceCtorEq, false_and, false_or]
    constructor
    · intro h2; exact ⟨a, s1, ⟨rfl, rfl⟩, h2⟩
    · rintro ⟨a', s1', ⟨rfl, rfl⟩, h2⟩; exact h2
  | error e => simp

theorem pure_ok (a b : α) (s s' : σ) : (pure a : Run σ α) s = (.ok b, s') ↔ a = b ∧ s = s' := by
  change ((.ok a, s) : Except PyErr α × σ) = _ ↔ _
  simp

theorem pure_error (a : α) (s s' : σ) (e : PyErr) : ¬ (pure a : Run σ α) s = (.error e, s') := by
  change ¬ ((.ok a, s) : Except PyErr α × σ) = _
  simp

theorem lift_ok (x : Except PyErr α) (a : α) (s s' : σ) : Run.lift x s = (.ok a, s') ↔ x = .ok a ∧ s = s' := by
  simp [Run.lift]

theorem lift_error (x : Except PyErr α) (e : PyErr) (s s' : σ) :
    (Run.lift x : Run σ α) s = (.error e, s') ↔ x = .error e ∧ s = s' := by
  simp [Run.lift]

theorem raise_ok (e : PyErr) (a : α) (s s' : σ) : ¬ (Run.raise e : Run σ α) s = (.ok a, s') := by
  simp [Run.raise]

theorem raise_error (e e' : PyErr) (s s' : σ) :
    (Run.raise e : Run σ α) s = (.error e', s') ↔ e = e' ∧ s = s' := by
  simp [Run.raise]

/-! ## What the LLM said -/

/-- The LLM was asked `m` in state `s`; its reply, cut down to the outermost braces, was the JSON dictionary `d`;
the new state is `s'`. -/
def Asks (w : World σ) (s : σ) (m : Message) (d : Dict) (s' : σ) : Prop :=
  ∃ text t, w.call s m = (.ok text, s') ∧ searchBraces text = some t ∧ w.loads t = .ok d

/-- The reply holds the list of strings `ss` under the key. -/
def HasStrings (d : Dict) (key : String) (ss : List String) : Prop := d.get key = some (.arr (ss.map .str))

/-- An entry of a verdict list with verdict `v`. -/
def Entry (allowed : List String) (x : Json) (v : String) : Prop :=
  ∃ kvs : Dict, x = .obj kvs ∧ (∀ k, (Dict.get kvs k ≠ none ↔ k = "verdict" ∨ k = "analysis")) ∧
    Dict.get kvs "verdict" = some (.str v) ∧ v ∈ allowed

/-- The reply holds a well formed list of verdicts, and these are `vs`. -/
def HasVerdicts (allowed : List String) (d : Dict) (vs : List String) : Prop :=
  ∃ xs, d.get "verdicts" = some (.arr xs) ∧ List.Forall₂ (Entry allowed) xs vs

theorem entries (allowed : List String) (xs : List Json) :
    (∀ v ∈ xs, VerdictOk allowed v) ↔ ∃ vs, List.Forall₂ (Entry allowed) xs vs := by
  induction xs with
  | nil => simp
  | cons x xs ih =>
    simp only [List.mem_cons, forall_eq_or_imp, ih]
    constructor
    · rintro ⟨⟨kvs, h1, h2, s, h3, h4⟩, vs, h5⟩
      exact ⟨s :: vs, .cons ⟨kvs, h1, h2, h4, h3⟩ h5⟩
    · rintro ⟨vs, h⟩
      cases h with
      | cons h1 h2 =>
        obtain ⟨kvs, h3, h4, h5, h6⟩ := h1
        exact ⟨⟨kvs, h3, h4, _, h6, h5⟩, _, h2⟩

theorem isYes_entry (allowed : List String) (x : Json) (v : String) (h : Entry allowed x v) :
    isYes x = .ok (v == "yes") := by
  obtain ⟨kvs, rfl, -, h2, -⟩ := h
  simp [isYes, h2]

theorem yesFlags_entries (allowed : List String) (xs : List Json) (vs : List String)
    (h : List.Forall₂ (Entry allowed) xs vs) : yesFlags xs = .ok (vs.map (· == "yes")) := by
  induction h with
  | nil => rfl
  | cons h1 h2 ih => simp [yesFlags, isYes_entry allowed _ _ h1, ih]

theorem count_yes (vs : List String) : (vs.map (· == "yes")).count true = vs.count "yes" := by
  induction vs with
  | nil => rfl
  | cons v vs ih =>
    by_cases h : v = "yes"
    · simp [h, ih]
    · rw [List.map_cons, List.count_cons_of_ne (by simpa using h), List.count_cons_of_ne h, ih]

theorem yesShare_entries (allowed : List String) (xs : List Json) (vs : List String)
    (h : List.Forall₂ (Entry allowed) xs vs) :
    yesShare xs = if vs = [] then .error .zeroDivision else .ok ((vs.count "yes" : Rat) / (vs.length : Rat)) := by
  rw [yesShare, yesFlags_entries allowed xs vs h]
  simp only [count_yes, pyDiv, h.length_eq]
  by_cases hv : vs = []
  · simp [hv]
  · rw [if_neg (by simpa using hv), if_neg hv]

/-! ## The generators -/

theorem generate_ok (w : World σ) (m : Message) (keys : List String)
    (val : Dict → String → Option (List String) → Option Nat → Except PyErr Unit) (al : Option (List String))
    (n : Option Nat) (s s' : σ) (d : Dict) :
    generate w m keys val al n s = (.ok d, s') ↔ Asks w s m d s' ∧ validateKeys val d al n keys = .ok () := by
  unfold generate Asks
  rw [bind_ok]
  constructor
  · rintro ⟨text, s1, h1, h2⟩
    obtain ⟨d1, s2, h3, h4⟩ := (bind_ok _ _ _ _ _).1 h2
    obtain ⟨u, s3, h5, h6⟩ := (bind_ok _ _ _ _ _).1 h4
    rw [lift_ok] at h3 h5
    rw [pure_ok] at h6
    obtain ⟨h3, rfl⟩ := h3
    obtain ⟨h5, rfl⟩ := h5
    obtain ⟨rfl, rfl⟩ := h6
    rw [trimAndLoadJson] at h3
    cases hb : searchBraces text with
    | none => rw [hb] at h3; simp at h3
    | some t =>
      rw [hb] at h3
      exact ⟨⟨text, t, h1, hb, h3⟩, h5⟩
  · rintro ⟨⟨text, t, h1, h2, h3⟩, h4⟩
    refine ⟨text, s', h1, ?_⟩
    rw [bind_ok]
    refine ⟨d, s', (lift_ok _ _ _ _).2 ⟨by rw [trimAndLoadJson, h2]; exact h3, rfl⟩, ?_⟩
    rw [bind_ok]
    exact ⟨(), s', (lift_ok _ _ _ _).2 ⟨h4, rfl⟩, (pure_ok _ _ _ _).2 ⟨rfl, rfl⟩⟩

theorem statementsOk_iff (d : Dict) (key : String) :
    validateStatements d key none none = .ok () ↔ ∃ ss, HasStrings d key ss := by
  obtain ⟨h1, h2⟩ := C44_statements d key none none
  constructor
  · intro h
    by_contra h3
    rw [h2 (fun ⟨ss, h4, _⟩ => h3 ⟨ss, h4⟩)] at h
    simp at h
  · rintro ⟨ss, h⟩
    exact h1 ⟨ss, h, by simp, by simp⟩

theorem stringsAt_has (d : Dict) (key : String) (ss : List String) (h : HasStrings d key ss) :
    stringsAt d key = .ok ss := by
  rw [HasStrings] at h
  simp only [stringsAt, h]
  congr 1
  induction ss with
  | nil => rfl
  | cons s ss ih => simp

/-- The three generators of string lists have the same shape. -/
theorem generateStrings_ok (w : World σ) (m : Message) (key : String) (s s' : σ) (ss : List String) :
    ((do let d ← generate w m [key] validateStatements
         Run.lift (stringsAt d key) : Run σ (List String)) s = (.ok ss, s')) ↔
      ∃ d, Asks w s m d s' ∧ HasStrings d key ss := by
  rw [bind_ok]
  constructor
  · rintro ⟨d, s1, h1, h2⟩
    obtain ⟨h3, h4⟩ := (generate_ok ..).1 h1
    rw [lift_ok] at h2
    obtain ⟨h2, rfl⟩ := h2
    have h5 : validateStatements d key none none = .ok () := by
      simp only [validateKeys] at h4
      cases h6 : validateStatements d key none none with
      | ok u => rfl
      | error e => rw [h6] at h4; simp at h4
    obtain ⟨ss', h6⟩ := (statementsOk_iff d key).1 h5
    rw [stringsAt_has d key ss' h6] at h2
    simp only [Except.ok.injEq] at h2
    exact ⟨d, h3, h2 ▸ h6⟩
  · rintro ⟨d, h1, h2⟩
    refine ⟨d, s', (generate_ok ..).2 ⟨h1, ?_⟩, (lift_ok _ _ _ _).2 ⟨stringsAt_has d key ss h2, rfl⟩⟩
    simp only [validateKeys, (statementsOk_iff d key).2 ⟨ss, h2⟩]

theorem generateClaims_ok (w : World σ) (sys text : String) (s s' : σ) (ss : List String) :
    generateClaims w sys text s = (.ok ss, s') ↔
      ∃ d, Asks w s ⟨sys, .claims text⟩ d s' ∧ HasStrings d "claims" ss := generateStrings_ok ..

theorem generateOpinions_ok (w : World σ) (sys text : String) (s s' : σ) (ss : List String) :
    generateOpinions w sys text s = (.ok ss, s') ↔
      ∃ d, Asks w s ⟨sys, .opinions text⟩ d s' ∧ HasStrings d "opinions" ss := generateStrings_ok ..

theorem generateStatements_ok (w : World σ) (sys text : String) (s s' : σ) (ss : List String) :
    generateStatements w sys text s = (.ok ss, s') ↔
      ∃ d, Asks w s ⟨sys, .statements text⟩ d s' ∧ HasStrings d "statements" ss := generateStrings_ok ..

theorem generateVerdicts_ok (w : World σ) (m : Message) (al : List String) (n : Nat) (s s' : σ) (xs : List Json) :
    generateVerdicts w m al n s = (.ok xs, s') ↔
      ∃ d vs, Asks w s m d s' ∧ d.get "verdicts" = some (.arr xs) ∧ List.Forall₂ (Entry al) xs vs ∧ vs.length = n := by
  unfold generateVerdicts
  rw [bind_ok]
  have hval : ∀ d : Dict, validateKeys validateVerdicts d (some al) (some n) ["verdicts"] = .ok () ↔
      ∃ ys, d.get "verdicts" = some (.arr ys) ∧ ys.length = n ∧ ∀ v ∈ ys, VerdictOk al v := by
    intro d
    rw [← C44_verdicts]
    simp only [validateKeys]
    cases h : validateVerdicts d "verdicts" (some al) (some n) <;> simp
  constructor
  · rintro ⟨d, s1, h1, h2⟩
    obtain ⟨h3, h4⟩ := (generate_ok ..).1 h1
    rw [lift_ok] at h2
    obtain ⟨h2, rfl⟩ := h2
    obtain ⟨ys, h5, h6, h7⟩ := (hval d).1 h4
    simp only [listAt, h5, Except.ok.injEq] at h2
    subst h2
    obtain ⟨vs, h8⟩ := (entries al ys).1 h7
    exact ⟨d, vs, h3, h5, h8, by rw [← h8.length_eq]; exact h6⟩
  · rintro ⟨d, vs, h1, h2, h3, h4⟩
    refine ⟨d, s', (generate_ok ..).2 ⟨h1, (hval d).2 ⟨xs, h2, by rw [h3.length_eq]; exact h4, (entries al xs).2 ⟨vs, h3⟩⟩⟩, ?_⟩
    rw [lift_ok]
    simp [listAt, h2]

/-- `sum(... == "yes") / len(verdicts)` of a generated verdict list. -/
theorem share_ok (w : World σ) (m : Message) (al : List String) (n : Nat) (s s' : σ) (x : Rat) :
    ((do let v ← generateVerdicts w m al n
         Run.lift (yesShare v) : Run σ Rat) s = (.ok x, s')) ↔
      n ≠ 0 ∧ ∃ d vs, Asks w s m d s' ∧ HasVerdicts al d vs ∧ vs.length = n ∧ x = (vs.count "yes" : Rat) / (n : Rat) := by
  rw [bind_ok]
  constructor
  · rintro ⟨xs, s1, h1, h2⟩
    obtain ⟨d, vs, h3, h4, h5, h6⟩ := (generateVerdicts_ok ..).1 h1
    rw [lift_ok, yesShare_entries al xs vs h5] at h2
    obtain ⟨h2, rfl⟩ := h2
    by_cases hv : vs = []
    · simp [hv] at h2
    · rw [if_neg hv] at h2
      simp only [Except.ok.injEq] at h2
      refine ⟨?_, d, vs, h3, ⟨xs, h4, h5⟩, h6, by rw [← h2, h6]⟩
      intro h0
      rw [h0] at h6
      exact hv (List.length_eq_zero_iff.1 h6)
  · rintro ⟨h0, d, vs, h1, ⟨xs, h2, h3⟩, h4, h5⟩
    refine ⟨xs, s', (generateVerdicts_ok ..).2 ⟨d, vs, h1, h2, h3, h4⟩, ?_⟩
    rw [lift_ok, yesShare_entries al xs vs h3, if_neg (by intro hv; rw [hv] at h4; exact h0 h4.symm), h5, h4]
    exact ⟨rfl, rfl⟩

/-! ## The scores -/

/-- The LLM gave one verdict for each of `n` things, and `x` is the share of "yes". -/
def Share (w : World σ) (s : σ) (m : Message) (al : List String) (n : Nat) (x : Rat) (s' : σ) : Prop :=
  ∃ d vs, Asks w s m d s' ∧ HasVerdicts al d vs ∧ vs.length = n ∧ x = (vs.count "yes" : Rat) / (n : Rat)

theorem share_range (w : World σ) (s s' : σ) (m : Message) (al : List String) (n : Nat) (x : Rat)
    (h : Share w s m al n x s') : 0 ≤ x ∧ x ≤ 1 := by
  obtain ⟨d, vs, -, -, h1, rfl⟩ := h
  have : vs.count "yes" ≤ n := h1 ▸ List.count_le_length
  refine ⟨by positivity, ?_⟩
  apply div_le_one_of_le₀ _ (by positivity)
  exact_mod_cast this

/-- C42, bias: 0 without opinions, otherwise the share of opinions that the LLM calls biased. -/
theorem C42_bias (w : World σ) (sys response : String) (s s' : σ) (x : Rat) :
    calculateBias w sys response s = (.ok x, s') ↔
      ∃ d ops s1, Asks w s ⟨sys, .opinions response⟩ d s1 ∧ HasStrings d "opinions" ops ∧
        ((ops = [] ∧ x = 0 ∧ s' = s1) ∨
          (ops ≠ [] ∧ Share w s1 ⟨sys, .bias ops⟩ ["yes", "no"] ops.length x s')) := by
  unfold calculateBias
  rw [bind_ok]
  constructor
  · rintro ⟨ops, s1, h1, h2⟩
    obtain ⟨d, h3, h4⟩ := (generateOpinions_ok ..).1 h1
    refine ⟨d, ops, s1, h3, h4, ?_⟩
    by_cases h : ops.length = 0
    · rw [if_pos h, pure_ok] at h2
      exact Or.inl ⟨List.length_eq_zero_iff.1 h, h2.1.symm, h2.2.symm⟩
    · rw [if_neg h] at h2
      exact Or.inr ⟨fun h3 => h (by simp [h3]), ((share_ok ..).1 h2).2⟩
  · rintro ⟨d, ops, s1, h3, h4, h5⟩
    refine ⟨ops, s1, (generateOpinions_ok ..).2 ⟨d, h3, h4⟩, ?_⟩
    rcases h5 with ⟨h5, h6, h7⟩ | ⟨h5, h6⟩
    · rw [if_pos (by simp [h5]), pure_ok]
      exact ⟨h6.symm, h7.symm⟩
    · have : ops.length ≠ 0 := fun h => h5 (List.length_eq_zero_iff.1 h)
      rw [if_neg this]
      exact (share_ok ..).2 ⟨this, h6⟩

/-- C42, toxicity: 0 without opinions, otherwise the share of opinions that the LLM calls toxic. -/
theorem C42_toxicity (w : World σ) (sys response : String) (s s' : σ) (x : Rat) :
    calculateToxicity w sys response s = (.ok x, s') ↔
      ∃ d ops s1, Asks w s ⟨sys, .opinions response⟩ d s1 ∧ HasStrings d "opinions" ops ∧
        ((ops = [] ∧ x = 0 ∧ s' = s1) ∨
          (ops ≠ [] ∧ Share w s1 ⟨sys, .toxicity ops⟩ ["yes", "no"] ops.length x s')) := by
  unfold calculateToxicity
  rw [bind_ok]
  constructor
  · rintro ⟨ops, s1, h1, h2⟩
    obtain ⟨d, h3, h4⟩ := (generateOpinions_ok ..).1 h1
    refine ⟨d, ops, s1, h3, h4, ?_⟩
    by_cases h : ops.length = 0
    · rw [if_pos h, pure_ok] at h2
      exact Or.inl ⟨List.length_eq_zero_iff.1 h, h2.1.symm, h2.2.symm⟩
    · rw [if_neg h] at h2
      exact Or.inr ⟨fun h3 => h (by simp [h3]), ((share_ok ..).1 h2).2⟩
  · rintro ⟨d, ops, s1, h3, h4, h5⟩
    refine ⟨ops, s1, (generateOpinions_ok ..).2 ⟨d, h3, h4⟩, ?_⟩
    rcases h5 with ⟨h5, h6, h7⟩ | ⟨h5, h6⟩
    · rw [if_pos (by simp [h5]), pure_ok]
      exact ⟨h6.symm, h7.symm⟩
    · have : ops.length ≠ 0 := fun h => h5 (List.length_eq_zero_iff.1 h)
      rw [if_neg this]
      exact (share_ok ..).2 ⟨this, h6⟩

/-- C42, answer relevance: 0 without statements, otherwise the share of statements that the LLM calls relevant. The
LLM is asked for verdicts even if there are no statements. -/
theorem C42_answer_relevance (w : World σ) (sys query response : String) (s s' : σ) (x : Rat) :
    calculateAnswerRelevance w sys query response s = (.ok x, s') ↔
      ∃ d stmts s1, Asks w s ⟨sys, .statements response⟩ d s1 ∧ HasStrings d "statements" stmts ∧
        Share w s1 ⟨sys, .answerRelevance query stmts⟩ ["yes", "no", "idk"] stmts.length x s' := by
  unfold calculateAnswerRelevance
  rw [bind_ok]
  constructor
  · rintro ⟨stmts, s1, h1, h2⟩
    obtain ⟨d, h3, h4⟩ := (generateStatements_ok ..).1 h1
    refine ⟨d, stmts, s1, h3, h4, ?_⟩
    obtain ⟨xs, s2, h5, h6⟩ := (bind_ok _ _ _ _ _).1 h2
    obtain ⟨d2, vs, h7, h8, h9, h10⟩ := (generateVerdicts_ok ..).1 h5
    refine ⟨d2, vs, ?_⟩
    by_cases h : xs.length = 0
    · rw [if_pos h, pure_ok] at h6
      have hv : vs = [] := List.length_eq_zero_iff.1 (by rw [← h9.length_eq]; exact h)
      refine ⟨h6.2 ▸ h7, ⟨xs, h8, h9⟩, h10, ?_⟩
      rw [← h6.1, hv]; simp
    · rw [if_neg h, lift_ok, yesShare_entries _ xs vs h9] at h6
      have hv : vs ≠ [] := by
        intro hv
        rw [hv] at h9
        exact h (by rw [h9.length_eq]; rfl)
      rw [if_neg hv, Except.ok.injEq] at h6
      exact ⟨h6.2 ▸ h7, ⟨xs, h8, h9⟩, h10, by rw [← h6.1, h10]⟩
  · rintro ⟨d, stmts, s1, h3, h4, d2, vs, h7, ⟨xs, h8, h9⟩, h10, h11⟩
    refine ⟨stmts, s1, (generateStatements_ok ..).2 ⟨d, h3, h4⟩, ?_⟩
    rw [bind_ok]
    refine ⟨xs, s', (generateVerdicts_ok ..).2 ⟨d2, vs, h7, h8, h9, h10⟩, ?_⟩
    by_cases hv : vs = []
    · rw [if_pos (by rw [h9.length_eq, hv]; rfl), pure_ok]
      exact ⟨by rw [h11, hv]; simp, rfl⟩
    · rw [if_neg (by rw [h9.length_eq]; simpa using hv), lift_ok, yesShare_entries _ xs vs h9, if_neg hv]
      exact ⟨by rw [h11, h10], rfl⟩

/-- C42, context relevance: 0 without contexts, otherwise the share of contexts that the LLM calls relevant. -/
theorem C42_context_relevance (w : World σ) (sys query : String) (ctx : List String) (s s' : σ) (x : Rat) :
    calculateContextRelevance w sys query ctx s = (.ok x, s') ↔
      (ctx = [] ∧ x = 0 ∧ s' = s) ∨
        (ctx ≠ [] ∧ Share w s ⟨sys, .contextRelevance query ctx⟩ ["yes", "no"] ctx.length x s') := by
  unfold calculateContextRelevance
  by_cases h : ctx = []
  · rw [if_pos (by simp [h]), pure_ok]
    constructor
    · rintro ⟨h1, h2⟩; exact Or.inl ⟨h, h1.symm, h2.symm⟩
    · rintro (⟨-, h1, h2⟩ | ⟨h1, -⟩)
      · exact ⟨h1.symm, h2.symm⟩
      · exact absurd h h1
  · have h0 : ctx.length ≠ 0 := fun h2 => h (List.length_eq_zero_iff.1 h2)
    rw [if_neg h0, generateContextRelevanceVerdicts, share_ok]
    constructor
    · rintro ⟨-, h2⟩; exact Or.inr ⟨h, h2⟩
    · rintro (⟨h1, -⟩ | ⟨-, h2⟩)
      · exact absurd h1 h
      · exact ⟨h0, h2⟩

/-- C42, faithfulness: 0 without contexts; otherwise 1 without claims, and the share of claims that the LLM finds
in the contexts. -/
theorem C42_faithfulness (w : World σ) (sys response : String) (ctx : List String) (s s' : σ) (x : Rat) :
    calculateFaithfulness w sys response ctx s = (.ok x, s') ↔
      (ctx = [] ∧ x = 0 ∧ s' = s) ∨
        (ctx ≠ [] ∧ ∃ d claims s1, Asks w s ⟨sys, .claims response⟩ d s1 ∧ HasStrings d "claims" claims ∧
          ((claims = [] ∧ x = 1 ∧ s' = s1) ∨
            (claims ≠ [] ∧ Share w s1 ⟨sys, .faithfulness claims ctx⟩ ["yes", "no"] claims.length x s'))) := by
  unfold calculateFaithfulness
  by_cases h : ctx = []
  · rw [if_pos (by simp [h]), pure_ok]
    constructor
    · rintro ⟨h1, h2⟩; exact Or.inl ⟨h, h1.symm, h2.symm⟩
    · rintro (⟨-, h1, h2⟩ | ⟨h1, -⟩)
      · exact ⟨h1.symm, h2.symm⟩
      · exact absurd h h1
  · have h0 : ctx.length ≠ 0 := fun h2 => h (List.length_eq_zero_iff.1 h2)
    rw [if_neg h0, bind_ok]
    constructor
    · rintro ⟨claims, s1, h1, h2⟩
      obtain ⟨d, h3, h4⟩ := (generateClaims_ok ..).1 h1
      refine Or.inr ⟨h, d, claims, s1, h3, h4, ?_⟩
      by_cases hc : claims.length = 0
      · rw [if_pos hc, pure_ok] at h2
        exact Or.inl ⟨List.length_eq_zero_iff.1 hc, h2.1.symm, h2.2.symm⟩
      · rw [if_neg hc] at h2
        exact Or.inr ⟨fun h3 => hc (by simp [h3]), ((share_ok ..).1 h2).2⟩
    · rintro (⟨h1, -⟩ | ⟨-, d, claims, s1, h3, h4, h5⟩)
      · exact absurd h1 h
      · refine ⟨claims, s1, (generateClaims_ok ..).2 ⟨d, h3, h4⟩, ?_⟩
        rcases h5 with ⟨h5, h6, h7⟩ | ⟨h5, h6⟩
        · rw [if_pos (by simp [h5]), pure_ok]
          exact ⟨h6.symm, h7.symm⟩
        · have : claims.length ≠ 0 := fun h => h5 (List.length_eq_zero_iff.1 h)
          rw [if_neg this]
          exact (share_ok ..).2 ⟨this, h6⟩

/-- C42, hallucination: the share of contexts that the LLM finds contradicted by the response; no score without
contexts. -/
theorem C42_hallucination (w : World σ) (sys response : String) (ctx : List String) (s s' : σ) (x : Rat) :
    calculateHallucination w sys response ctx s = (.ok x, s') ↔
      ctx ≠ [] ∧ Share w s ⟨sys, .hallucination response ctx⟩ ["yes", "no"] ctx.length x s' := by
  unfold calculateHallucination
  by_cases h : ctx = []
  · rw [if_pos (by simp [h])]
    constructor
    · intro h1; exact absurd h1 (raise_ok _ _ _ _)
    · rintro ⟨h1, -⟩; exact absurd h h1
  · have h0 : ctx.length ≠ 0 := fun h2 => h (List.length_eq_zero_iff.1 h2)
    rw [if_neg h0, generateHallucinationVerdicts, share_ok]
    constructor
    · rintro ⟨-, h2⟩; exact ⟨h, h2⟩
    · rintro ⟨-, h2⟩; exact ⟨h0, h2⟩

/-- C42, summary coherence: the score is the first signed integer of the reply, and it is one of 1 to 5. -/
theorem C42_summary_coherence (w : World σ) (sys text summary : String) (s s' : σ) (x : Int) :
    calculateSummaryCoherence w sys text summary s = (.ok x, s') ↔
      ∃ reply, w.call s ⟨sys, .summaryCoherence text summary⟩ = (.ok reply, s') ∧
        findFirstSignedInteger w.digit reply = .ok (some x) ∧ 1 ≤ x ∧ x ≤ 5 := by
  unfold calculateSummaryCoherence generateSummaryCoherence
  rw [bind_ok]
  have hm : ∀ n : Int, n ∈ ([1, 2, 3, 4, 5] : List Int) ↔ 1 ≤ n ∧ n ≤ 5 := by
    intro n
    simp only [List.mem_cons, List.not_mem_nil, or_false]
    omega
  constructor
  · rintro ⟨reply, s1, h1, h2⟩
    obtain ⟨r, s2, h3, h4⟩ := (bind_ok _ _ _ _ _).1 h2
    rw [lift_ok] at h3
    obtain ⟨h3, rfl⟩ := h3
    cases r with
    | none => exact absurd h4 (raise_ok _ _ _ _)
    | some n =>
      simp only at h4
      by_cases hn : n ∉ ([1, 2, 3, 4, 5] : List Int)
      · rw [if_pos hn] at h4
        exact absurd h4 (raise_ok _ _ _ _)
      · rw [if_neg hn, pure_ok] at h4
        obtain ⟨rfl, rfl⟩ := h4
        exact ⟨reply, h1, h3, (hm n).1 (not_not.1 hn)⟩
  · rintro ⟨reply, h1, h2, h3⟩
    refine ⟨reply, s', h1, ?_⟩
    rw [bind_ok]
    refine ⟨some x, s', (lift_ok _ _ _ _).2 ⟨h2, rfl⟩, ?_⟩
    simp only
    rw [if_neg (not_not.2 ((hm x).2 h3)), pure_ok]
    exact ⟨rfl, rfl⟩

/-! ### Answer correctness -/

/-- The verdicts of the LLM on the statements of one ground truth: `x` is twice the number of supported statements
divided by the number of statements on both sides (the F1 score), or 0 if none is supported. -/
def Correctness (w : World σ) (sys query : String) (preds : List String) (s : σ) (gt : String) (x : Rat) (s' : σ) :
    Prop :=
  ∃ d1 s1 stmts d2 tp fp fn, Asks w s ⟨sys, .statements gt⟩ d1 s1 ∧ HasStrings d1 "statements" stmts ∧
    Asks w s1 ⟨sys, .answerCorrectness query preds stmts⟩ d2 s' ∧
    HasStrings d2 "TP" tp ∧ HasStrings d2 "FP" fp ∧ HasStrings d2 "FN" fn ∧
    tp.length + fp.length = preds.length ∧ fn.length ≤ stmts.length ∧
    x = 2 * (tp.length : Rat) / (2 * (tp.length : Rat) + (fp.length : Rat) + (fn.length : Rat))

theorem f1Score_eq (tp fp fn : Nat) :
    f1Score tp fp fn = 2 * (tp : Rat) / (2 * (tp : Rat) + (fp : Rat) + (fn : Rat)) := by
  unfold f1Score
  by_cases h : tp > 0
  · rw [if_pos h]
    have : (0 : Rat) < tp := by exact_mod_cast h
    rw [div_eq_div_iff (by positivity) (by positivity)]
    ring
  · rw [if_neg h]
    have : tp = 0 := by omega
    simp [this]

theorem correctness_step (w : World σ) (sys query : String) (preds : List String) (s s' : σ) (gt : String) (x : Rat) :
    ((do let stmts ← generateStatements w sys gt
         let v ← generateAnswerCorrectnessVerdicts w sys query preds stmts
         return f1Score v.1.length v.2.1.length v.2.2.length : Run σ Rat) s = (.ok x, s')) ↔
      Correctness w sys query preds s gt x s' := by
  unfold Correctness
  rw [bind_ok]
  have hkeys : ∀ d : Dict, validateKeys validateStatements d none none ["TP", "FP", "FN"] = .ok () ↔
      (∃ a, HasStrings d "TP" a) ∧ (∃ a, HasStrings d "FP" a) ∧ (∃ a, HasStrings d "FN" a) := by
    intro d
    rw [← statementsOk_iff, ← statementsOk_iff, ← statementsOk_iff]
    simp only [validateKeys]
    cases h1 : validateStatements d "TP" none none <;> cases h2 : validateStatements d "FP" none none <;>
      cases h3 : validateStatements d "FN" none none <;> simp
  constructor
  · rintro ⟨stmts, s1, h1, h2⟩
    obtain ⟨d1, h3, h4⟩ := (generateStatements_ok ..).1 h1
    obtain ⟨v, s2, h5, h6⟩ := (bind_ok _ _ _ _ _).1 h2
    rw [pure_ok] at h6
    obtain ⟨h6, rfl⟩ := h6
    unfold generateAnswerCorrectnessVerdicts at h5
    obtain ⟨d2, s3, h7, h8⟩ := (bind_ok _ _ _ _ _).1 h5
    obtain ⟨h9, h10⟩ := (generate_ok ..).1 h7
    obtain ⟨⟨tp, htp⟩, ⟨fp, hfp⟩, ⟨fn, hfn⟩⟩ := (hkeys d2).1 h10
    obtain ⟨tp', s4, h11, h12⟩ := (bind_ok _ _ _ _ _).1 h8
    rw [lift_ok, stringsAt_has _ _ _ htp] at h11
    simp only [Except.ok.injEq] at h11
    obtain ⟨rfl, rfl⟩ := h11
    obtain ⟨fp', s5, h13, h14⟩ := (bind_ok _ _ _ _ _).1 h12
    rw [lift_ok, stringsAt_has _ _ _ hfp] at h13
    simp only [Except.ok.injEq] at h13
    obtain ⟨rfl, rfl⟩ := h13
    by_cases hl : tp.length + fp.length ≠ preds.length
    · rw [if_pos hl] at h14
      exact absurd h14 (raise_ok _ _ _ _)
    · rw [if_neg hl] at h14
      obtain ⟨fn', s7, h17, h18⟩ := (bind_ok _ _ _ _ _).1 h14
      rw [lift_ok, stringsAt_has _ _ _ hfn] at h17
      simp only [Except.ok.injEq] at h17
      obtain ⟨rfl, rfl⟩ := h17
      by_cases hg : fn.length > stmts.length
      · rw [if_pos hg] at h18
        exact absurd h18 (raise_ok _ _ _ _)
      · rw [if_neg hg, pure_ok] at h18
        obtain ⟨rfl, rfl⟩ := h18
        exact ⟨d1, s1, stmts, d2, tp, fp, fn, h3, h4, h9, htp, hfp, hfn, by omega, by omega,
          by rw [← h6, f1Score_eq]⟩
  · rintro ⟨d1, s1, stmts, d2, tp, fp, fn, h3, h4, h9, htp, hfp, hfn, hl, hg, hx⟩
    refine ⟨stmts, s1, (generateStatements_ok ..).2 ⟨d1, h3, h4⟩, ?_⟩
    rw [bind_ok]
    refine ⟨(tp, fp, fn), s', ?_, (pure_ok _ _ _ _).2 ⟨by rw [hx, f1Score_eq], rfl⟩⟩
    unfold generateAnswerCorrectnessVerdicts
    rw [bind_ok]
    refine ⟨d2, s', (generate_ok ..).2 ⟨h9, (hkeys d2).2 ⟨⟨tp, htp⟩, ⟨fp, hfp⟩, ⟨fn, hfn⟩⟩⟩, ?_⟩
    rw [bind_ok]
    refine ⟨tp, s', (lift_ok _ _ _ _).2 ⟨stringsAt_has _ _ _ htp, rfl⟩, ?_⟩
    rw [bind_ok]
    refine ⟨fp, s', (lift_ok _ _ _ _).2 ⟨stringsAt_has _ _ _ hfp, rfl⟩, ?_⟩
    rw [if_neg (show ¬ tp.length + fp.length ≠ preds.length by omega), bind_ok]
    refine ⟨fn, s', (lift_ok _ _ _ _).2 ⟨stringsAt_has _ _ _ hfn, rfl⟩, ?_⟩
    rw [if_neg (show ¬ fn.length > stmts.length by omega), pure_ok]
    exact ⟨rfl, rfl⟩

/-- A chain of steps, one for each input, with the states threaded through. -/
inductive Chain (step : σ → String → Rat → σ → Prop) : σ → List String → List Rat → σ → Prop
  | nil (s) : Chain step s [] [] s
  | cons {s s1 s2 g gs x xs} : step s g x s1 → Chain step s1 gs xs s2 → Chain step s (g :: gs) (x :: xs) s2

theorem correctness_loop (w : World σ) (sys query : String) (preds gts : List String) (s s' : σ) (xs : List Rat) :
    answerCorrectnessLoop w sys query preds gts s = (.ok xs, s') ↔
      Chain (fun a g x b => Correctness w sys query preds a g x b) s gts xs s' := by
  induction gts generalizing s xs with
  | nil =>
    rw [answerCorrectnessLoop, pure_ok]
    constructor
    · rintro ⟨rfl, rfl⟩; exact .nil _
    · intro h; cases h; exact ⟨rfl, rfl⟩
  | cons g gs ih =>
    rw [answerCorrectnessLoop, bind_ok]
    constructor
    · rintro ⟨stmts, s1, h1, h2⟩
      obtain ⟨v, s2, h3, h4⟩ := (bind_ok _ _ _ _ _).1 h2
      obtain ⟨rest, s3, h5, h6⟩ := (bind_ok _ _ _ _ _).1 h4
      rw [pure_ok] at h6
      obtain ⟨rfl, rfl⟩ := h6
      refine .cons ((correctness_step ..).1 ?_) ((ih _ _).1 h5)
      rw [bind_ok]
      refine ⟨stmts, s1, h1, ?_⟩
      rw [bind_ok]
      exact ⟨v, s2, h3, (pure_ok _ _ _ _).2 ⟨rfl, rfl⟩⟩
    · intro h
      cases h with
      | cons h1 h2 =>
        obtain ⟨stmts, s1, h3, h4⟩ := (bind_ok _ _ _ _ _).1 ((correctness_step ..).2 h1)
        obtain ⟨v, s2, h5, h6⟩ := (bind_ok _ _ _ _ _).1 h4
        rw [pure_ok] at h6
        obtain ⟨h6, rfl⟩ := h6
        refine ⟨stmts, s1, h3, ?_⟩
        rw [bind_ok]
        refine ⟨v, s2, h5, ?_⟩
        rw [bind_ok]
        exact ⟨_, s', (ih _ _).2 h2, (pure_ok _ _ _ _).2 ⟨by rw [h6], rfl⟩⟩

/-- `x` is the largest of the list. -/
def IsMax (x : Rat) (xs : List Rat) : Prop := x ∈ xs ∧ ∀ y ∈ xs, y ≤ x

theorem pyMax_foldl (a : Rat) (xs : List Rat) :
    IsMax (xs.foldl (fun m y => if y > m then y else m) a) (a :: xs) := by
  induction xs generalizing a with
  | nil => simp [IsMax]
  | cons b xs ih =>
    rw [List.foldl_cons]
    obtain ⟨h1, h2⟩ := ih (if b > a then b else a)
    generalize xs.foldl (fun m y => if y > m then y else m) (if b > a then b else a) = r at h1 h2
    by_cases hb : b > a
    · rw [if_pos hb] at h1 h2
      refine ⟨List.mem_cons_of_mem _ h1, ?_⟩
      intro y hy
      rcases List.mem_cons.1 hy with rfl | hy
      · exact hb.le.trans (h2 b (by simp))
      · exact h2 y hy
    · rw [if_neg hb] at h1 h2
      refine ⟨?_, ?_⟩
      · rcases List.mem_cons.1 h1 with h | h
        · simp [h]
        · simp [h]
      · intro y hy
        rcases List.mem_cons.1 hy with rfl | hy
        · exact h2 _ (by simp)
        · rcases List.mem_cons.1 hy with rfl | hy
          · exact (not_lt.1 hb).trans (h2 a (by simp))
          · exact h2 y (by simp [hy])

theorem pyMax_ok (xs : List Rat) (x : Rat) : pyMax xs = .ok x ↔ IsMax x xs := by
  cases xs with
  | nil => simp [pyMax, IsMax]
  | cons a xs =>
    simp only [pyMax, Except.ok.injEq]
    have h := pyMax_foldl a xs
    constructor
    · rintro rfl; exact h
    · intro h2
      exact le_antisymm (h2.2 _ h.1) (h.2 _ h2.1)

/-- C42, answer correctness: the best F1 score over the ground truths, and 0 without ground truths. -/
theorem C42_answer_correctness (w : World σ) (sys query response : String) (gts : List String) (s s' : σ) (x : Rat) :
    calculateAnswerCorrectness w sys query response gts s = (.ok x, s') ↔
      ∃ d preds s1 xs, Asks w s ⟨sys, .statements response⟩ d s1 ∧ HasStrings d "statements" preds ∧
        Chain (fun a g y b => Correctness w sys query preds a g y b) s1 gts xs s' ∧ IsMax x (0 :: xs) := by
  unfold calculateAnswerCorrectness
  rw [bind_ok]
  constructor
  · rintro ⟨preds, s1, h1, h2⟩
    obtain ⟨d, h3, h4⟩ := (generateStatements_ok ..).1 h1
    obtain ⟨xs, s2, h5, h6⟩ := (bind_ok _ _ _ _ _).1 h2
    rw [lift_ok, pyMax_ok] at h6
    obtain ⟨h6, rfl⟩ := h6
    exact ⟨d, preds, s1, xs, h3, h4, (correctness_loop ..).1 h5, h6⟩
  · rintro ⟨d, preds, s1, xs, h3, h4, h5, h6⟩
    refine ⟨preds, s1, (generateStatements_ok ..).2 ⟨d, h3, h4⟩, ?_⟩
    rw [bind_ok]
    exact ⟨xs, s', (correctness_loop ..).2 h5, (lift_ok _ _ _ _).2 ⟨(pyMax_ok _ _).2 h6, rfl⟩⟩

/-! ### Context recall -/

/-- The share of the statements of one ground truth that the LLM finds in the contexts. -/
def Recall (w : World σ) (sys : String) (ctx : List String) (s : σ) (gt : String) (x : Rat) (s' : σ) : Prop :=
  ∃ d s1 stmts, Asks w s ⟨sys, .statements gt⟩ d s1 ∧ HasStrings d "statements" stmts ∧ stmts ≠ [] ∧
    Share w s1 ⟨sys, .contextRecall ctx stmts⟩ ["yes", "no"] stmts.length x s'

theorem recall_loop (w : World σ) (sys : String) (ctx gts : List String) (s s' : σ) (xs : List Rat) :
    contextRecallLoop w sys ctx gts s = (.ok xs, s') ↔
      Chain (fun a g x b => Recall w sys ctx a g x b) s gts xs s' := by
  induction gts generalizing s xs with
  | nil =>
    rw [contextRecallLoop, pure_ok]
    constructor
    · rintro ⟨rfl, rfl⟩; exact .nil _
    · intro h; cases h; exact ⟨rfl, rfl⟩
  | cons g gs ih =>
    rw [contextRecallLoop, bind_ok]
    constructor
    · rintro ⟨stmts, s1, h1, h2⟩
      obtain ⟨d, h3, h4⟩ := (generateStatements_ok ..).1 h1
      obtain ⟨v, s2, h5, h6⟩ := (bind_ok _ _ _ _ _).1 h2
      obtain ⟨x, s3, h7, h8⟩ := (bind_ok _ _ _ _ _).1 h6
      obtain ⟨rest, s4, h9, h10⟩ := (bind_ok _ _ _ _ _).1 h8
      rw [pure_ok] at h10
      obtain ⟨rfl, rfl⟩ := h10
      obtain ⟨hn, hs⟩ := (share_ok w ⟨sys, .contextRecall ctx stmts⟩ ["yes", "no"] stmts.length s1 s3 x).1
        ((bind_ok _ _ _ _ _).2 ⟨v, s2, h5, h7⟩)
      exact .cons ⟨d, s1, stmts, h3, h4, fun h => hn (by simp [h]), hs⟩ ((ih _ _).1 h9)
    · intro h
      cases h with
      | cons h1 h2 =>
        obtain ⟨d, s1, stmts, h3, h4, hn, hs⟩ := h1
        refine ⟨stmts, s1, (generateStatements_ok ..).2 ⟨d, h3, h4⟩, ?_⟩
        obtain ⟨v, s2, h5, h7⟩ := (bind_ok _ _ _ _ _).1
          ((share_ok w ⟨sys, .contextRecall ctx stmts⟩ ["yes", "no"] stmts.length s1 _ _).2
            ⟨fun h => hn (List.length_eq_zero_iff.1 h), hs⟩)
        rw [bind_ok]
        refine ⟨v, s2, h5, ?_⟩
        rw [bind_ok]
        refine ⟨_, _, h7, ?_⟩
        rw [bind_ok]
        exact ⟨_, s', (ih _ _).2 h2, (pure_ok _ _ _ _).2 ⟨rfl, rfl⟩⟩

/-- C42, context recall: 1 if there are neither contexts nor ground truths, 0 if only one of them is missing, and
the best share of found statements otherwise. -/
theorem C42_context_recall (w : World σ) (sys : String) (ctx gts : List String) (s s' : σ) (x : Rat) :
    calculateContextRecall w sys ctx gts s = (.ok x, s') ↔
      (ctx = [] ∧ gts = [] ∧ x = 1 ∧ s' = s) ∨ (ctx = [] ∧ gts ≠ [] ∧ x = 0 ∧ s' = s) ∨
      (ctx ≠ [] ∧ gts = [] ∧ x = 0 ∧ s' = s) ∨
      (ctx ≠ [] ∧ gts ≠ [] ∧ ∃ xs, Chain (fun a g y b => Recall w sys ctx a g y b) s gts xs s' ∧ IsMax x xs) := by
  unfold calculateContextRecall
  simp only [List.length_eq_zero_iff]
  by_cases h1 : ctx = [] <;> by_cases h2 : gts = []
  · rw [if_pos ⟨h1, h2⟩, pure_ok]
    simp [h1, h2, eq_comm]
  · rw [if_neg (by simp [h2]), if_pos (Or.inl h1), pure_ok]
    simp [h1, h2, eq_comm]
  · rw [if_neg (by simp [h1]), if_pos (Or.inr h2), pure_ok]
    simp [h1, h2, eq_comm]
  · rw [if_neg (by simp [h1]), if_neg (by simp [h1, h2]), bind_ok]
    simp only [h1, h2, false_and, ne_eq, not_false_eq_true, true_and, false_or, recall_loop, lift_ok, pyMax_ok]
    constructor
    · rintro ⟨xs, s1, h3, h4, rfl⟩; exact ⟨xs, h3, h4⟩
    · rintro ⟨xs, h3, h4⟩; exact ⟨xs, s', h3, h4, rfl⟩

/-! ### Context precision -/

/-- The LLM judged the contexts for each ground truth in turn; `rows` holds one list of verdicts for each ground
truth. -/
inductive Judged (w : World σ) (sys query : String) (ctx : List String) : σ → List String → List (List String) → σ → Prop
  | nil (s) : Judged w sys query ctx s [] [] s
  | cons {s s1 s2 g gs d vs rows} : Asks w s ⟨sys, .contextPrecision query ctx g⟩ d s1 →
      HasVerdicts ["yes", "no"] d vs → vs.length = ctx.length → Judged w sys query ctx s1 gs rows s2 →
      Judged w sys query ctx s (g :: gs) (vs :: rows) s2

theorem aggregate_ok (agg bs : List Bool) (h : bs.length = agg.length) :
    aggregate agg bs = .ok (List.zipWith (fun a b => a || b) agg bs) := by
  induction agg generalizing bs with
  | nil =>
    have : bs = [] := List.length_eq_zero_iff.1 h
    simp [this, aggregate]
  | cons a agg ih =>
    cases bs with
    | nil => simp at h
    | cons b bs =>
      simp only [List.length_cons, Nat.add_right_cancel_iff] at h
      simp only [aggregate, ih bs h, List.zipWith_cons_cons, Except.ok.injEq, List.cons.injEq, and_true]
      cases a <;> cases b <;> rfl

/-- The relevance of the contexts: relevant for some ground truth. -/
def relevant (rows : List (List String)) (init : List Bool) : List Bool :=
  (List.range init.length).map (fun i => init.getD i false || rows.any (fun vs => vs[i]? == some "yes"))

theorem relevant_cons (vs : List String) (rows : List (List String)) (init : List Bool) (h : vs.length = init.length) :
    relevant rows (List.zipWith (fun a b => a || b) init (vs.map (· == "yes"))) = relevant (vs :: rows) init := by
  unfold relevant
  simp only [List.length_zipWith, List.length_map, h, Nat.min_self]
  apply List.map_congr_left
  intro i hi
  rw [List.mem_range] at hi
  have hv : i < vs.length := by omega
  rw [List.any_cons, ← Bool.or_assoc]
  congr 1
  rw [List.getD_eq_getElem?_getD, List.getD_eq_getElem?_getD, List.getElem?_eq_getElem hi,
    List.getElem?_eq_getElem (by simp; omega), List.getElem?_eq_getElem hv]
  simp

theorem precision_loop (w : World σ) (sys query : String) (ctx gts : List String) (init : List Bool)
    (hi : init.length = ctx.length) (s s' : σ) (agg : List Bool) :
    contextPrecisionLoop w sys query ctx gts init s = (.ok agg, s') ↔
      ∃ rows, Judged w sys query ctx s gts rows s' ∧ agg = relevant rows init := by
  induction gts generalizing s init with
  | nil =>
    rw [contextPrecisionLoop, pure_ok]
    have hr : relevant [] init = init := by
      unfold relevant
      apply List.ext_getElem (by simp)
      intro i h1 h2
      simp [List.getElem?_eq_getElem h2]
    constructor
    · rintro ⟨rfl, rfl⟩
      exact ⟨[], .nil _, hr.symm⟩
    · rintro ⟨rows, h, rfl⟩
      cases h
      exact ⟨hr.symm, rfl⟩
  | cons g gs ih =>
    rw [contextPrecisionLoop, bind_ok]
    constructor
    · rintro ⟨xs, s1, h1, h2⟩
      obtain ⟨d, vs, h3, h4, h5, h6⟩ := (generateVerdicts_ok ..).1 h1
      obtain ⟨fl, s2, h7, h8⟩ := (bind_ok _ _ _ _ _).1 h2
      rw [lift_ok, yesFlags_entries _ xs vs h5, Except.ok.injEq] at h7
      obtain ⟨rfl, rfl⟩ := h7
      obtain ⟨agg', s3, h9, h10⟩ := (bind_ok _ _ _ _ _).1 h8
      rw [lift_ok, aggregate_ok _ _ (by simp; omega), Except.ok.injEq] at h9
      obtain ⟨rfl, rfl⟩ := h9
      obtain ⟨rows, h11, h12⟩ := (ih _ (by simp; omega) _).1 h10
      refine ⟨vs :: rows, .cons h3 ⟨xs, h4, h5⟩ h6 h11, ?_⟩
      rw [h12, relevant_cons _ _ _ (by omega)]
    · rintro ⟨rows, h, rfl⟩
      cases h with
      | @cons _ s1 _ _ _ d vs rows h3 h4 h6 h11 =>
        obtain ⟨xs, h4, h5⟩ := h4
        refine ⟨xs, s1, (generateVerdicts_ok ..).2 ⟨d, vs, h3, h4, h5, h6⟩, ?_⟩
        rw [bind_ok]
        refine ⟨_, s1, (lift_ok _ _ _ _).2 ⟨yesFlags_entries _ xs vs h5, rfl⟩, ?_⟩
        rw [bind_ok]
        refine ⟨_, s1, (lift_ok _ _ _ _).2 ⟨aggregate_ok _ _ (by simp; omega), rfl⟩, ?_⟩
        exact (ih _ (by simp; omega) _).2 ⟨rows, h11, (relevant_cons _ _ _ (by omega)).symm⟩

/-- C42, C43, context precision: 1 if there are neither contexts nor ground truths, 0 if only one of them is
missing, and otherwise the precision (see `C43_mean`) of the list that tells, for each context, whether the LLM said
"yes" to it for some ground truth. -/
theorem C43_context_precision (w : World σ) (sys query : String) (ctx gts : List String) (s s' : σ) (x : Rat) :
    calculateContextPrecision w sys query ctx gts s = (.ok x, s') ↔
      (ctx = [] ∧ gts = [] ∧ x = 1 ∧ s' = s) ∨ (ctx = [] ∧ gts ≠ [] ∧ x = 0 ∧ s' = s) ∨
      (ctx ≠ [] ∧ gts = [] ∧ x = 0 ∧ s' = s) ∨
      (ctx ≠ [] ∧ gts ≠ [] ∧ ∃ rows, Judged w sys query ctx s gts rows s' ∧
        x = contextPrecisionOf ((List.range ctx.length).map (fun i => rows.any (fun vs => vs[i]? == some "yes")))) := by
  unfold calculateContextPrecision
  simp only [List.length_eq_zero_iff]
  by_cases h1 : ctx = [] <;> by_cases h2 : gts = []
  · rw [if_pos ⟨h1, h2⟩, pure_ok]
    simp [h1, h2, eq_comm]
  · rw [if_neg (by simp [h2]), if_pos (Or.inl h1), pure_ok]
    simp [h1, h2, eq_comm]
  · rw [if_neg (by simp [h1]), if_pos (Or.inr h2), pure_ok]
    simp [h1, h2, eq_comm]
  · rw [if_neg (by simp [h1]), if_neg (by simp [h1, h2]), bind_ok]
    simp only [h1, h2, false_and, ne_eq, not_false_eq_true, true_and, false_or, pure_ok]
    have hr : ∀ rows, relevant rows (List.replicate ctx.length false)
        = (List.range ctx.length).map (fun i => rows.any (fun vs => vs[i]? == some "yes")) := by
      intro rows
      unfold relevant
      rw [List.length_replicate]
      apply List.map_congr_left
      intro i hi
      rw [List.mem_range] at hi
      simp [hi]
    constructor
    · rintro ⟨agg, s1, h3, h4, rfl⟩
      obtain ⟨rows, h5, h6⟩ := (precision_loop w sys query ctx gts _ (by simp) s s1 agg).1 h3
      exact ⟨rows, h5, by rw [← h4, h6, hr]⟩
    · rintro ⟨rows, h3, h4⟩
      exact ⟨_, s', (precision_loop w sys query ctx gts _ (by simp) s s' _).2 ⟨rows, h3, rfl⟩, by rw [h4, hr], rfl⟩

end Verif.TextGen
