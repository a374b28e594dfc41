import Verif.TextGen.Samples

/-! # C114: an LLM that always gives the same answer -/

namespace Verif.TextGen

variable {σ : Type} {α β : Type}

/-- The LLM answers the same message always in the same way. -/
def Steady (w : World σ) : Prop := ∀ m s s', (w.call s m).1 = (w.call s' m).1

/-- A computation reports the score `x`. -/
def Scores (m : Run σ (Option Metric)) (s : σ) (x : Rat) : Prop := ∃ t e r, (m s).1 = .ok (some (.value t x e r))

/-- The result does not depend on what was asked before. -/
structure Det (m : Run σ α) : Prop where
  same : ∀ s s', (m s).1 = (m s').1

theorem det_pure (a : α) : Det (pure a : Run σ α) := ⟨fun _ _ => rfl⟩
theorem det_lift (x : Except PyErr α) : Det (Run.lift x : Run σ α) := ⟨fun _ _ => rfl⟩
theorem det_raise (e : PyErr) : Det (Run.raise e : Run σ α) := ⟨fun _ _ => rfl⟩

theorem bind_val {m : Run σ α} {f : α → Run σ β} (hf : ∀ a, Det (f a)) (s : σ) (b : β) :
    ((m >>= f) s).1 = .ok b ↔ ∃ a, (m s).1 = .ok a ∧ (f a s).1 = .ok b := by
  change (match m s with | (.ok a, s') => f a s' | (.error e, s') => (.error e, s')).1 = _ ↔ _
  rcases h : m s with ⟨r, s1⟩
  cases r with
  | ok a =>
    simp only [Except.ok.injEq, exists_eq_left']
    rw [(hf a).same s1 s]
  | error e => simp

theorem det_bind {m : Run σ α} {f : α → Run σ β} (hm : Det m) (hf : ∀ a, Det (f a)) : Det (m >>= f) := by
  constructor
  intro s s'
  change (match m s with | (.ok a, s') => f a s' | (.error e, s') => (.error e, s')).1 =
    (match m s' with | (.ok a, s') => f a s' | (.error e, s') => (.error e, s')).1
  have h := hm.same s s'
  rcases h1 : m s with ⟨r, s1⟩
  rcases h2 : m s' with ⟨r', s2⟩
  rw [h1, h2] at h
  simp only at h
  subst h
  cases r with
  | ok a => exact (hf a).same s1 s2
  | error e => rfl

theorem det_ite {c : Prop} [Decidable c] {m m' : Run σ α} (h : Det m) (h' : Det m') : Det (if c then m else m') := by
  split <;> assumption

section
variable {w : World σ} (hw : Steady w)
include hw

theorem det_ask (m : Message) : Det (w.ask m) := ⟨hw m⟩

theorem det_generate (m : Message) (keys : List String)
    (val : Dict → String → Option (List String) → Option Nat → Except PyErr Unit) (al : Option (List String)) (n : Option Nat) :
    Det (generate w m keys val al n) := by
  unfold generate
  exact det_bind (det_ask hw m) (fun _ => det_bind (det_lift _) (fun _ => det_bind (det_lift _) (fun _ => det_pure _)))

theorem det_verdicts (m : Message) (al : List String) (n : Nat) : Det (generateVerdicts w m al n) := by
  unfold generateVerdicts
  exact det_bind (det_generate hw ..) (fun _ => det_lift _)

theorem det_statements (sys text : String) : Det (generateStatements w sys text) := by
  unfold generateStatements
  exact det_bind (det_generate hw ..) (fun _ => det_lift _)

theorem det_claims (sys text : String) : Det (generateClaims w sys text) := by
  unfold generateClaims
  exact det_bind (det_generate hw ..) (fun _ => det_lift _)

theorem det_opinions (sys text : String) : Det (generateOpinions w sys text) := by
  unfold generateOpinions
  exact det_bind (det_generate hw ..) (fun _ => det_lift _)

theorem det_correctnessVerdicts (sys query : String) (preds gts : List String) : Det (generateAnswerCorrectnessVerdicts w sys query preds gts) := by
  unfold generateAnswerCorrectnessVerdicts
  refine det_bind (det_generate hw ..) (fun _ => det_bind (det_lift _) (fun _ => det_bind (det_lift _) (fun _ => ?_)))
  exact det_ite (det_raise _) (det_bind (det_lift _) (fun _ => det_ite (det_raise _) (det_pure _)))

theorem det_correctnessLoop (sys query : String) (preds gts : List String) : Det (answerCorrectnessLoop w sys query preds gts) := by
  induction gts with
  | nil => exact det_pure _
  | cons g gs ih =>
    exact det_bind (det_statements hw ..) (fun _ => det_bind (det_correctnessVerdicts hw ..) (fun _ => det_bind ih (fun _ => det_pure _)))

theorem det_recallLoop (sys : String) (ps gts : List String) : Det (contextRecallLoop w sys ps gts) := by
  induction gts with
  | nil => exact det_pure _
  | cons g gs ih =>
    exact det_bind (det_statements hw ..) (fun _ => det_bind (det_verdicts hw ..) (fun _ => det_bind (det_lift _)
      (fun _ => det_bind ih (fun _ => det_pure _))))

theorem det_precisionLoop (sys query : String) (ps gts : List String) (agg : List Bool) : Det (contextPrecisionLoop w sys query ps gts agg) := by
  induction gts generalizing agg with
  | nil => exact det_pure _
  | cons g gs ih =>
    exact det_bind (det_verdicts hw ..) (fun _ => det_bind (det_lift _) (fun _ => det_bind (det_lift _) (fun _ => ih _)))

theorem det_correctness (sys query response : String) (gts : List String) : Det (calculateAnswerCorrectness w sys query response gts) := by
  unfold calculateAnswerCorrectness
  exact det_bind (det_statements hw ..) (fun _ => det_bind (det_correctnessLoop hw ..) (fun _ => det_lift _))

theorem det_recall (sys : String) (ps gts : List String) : Det (calculateContextRecall w sys ps gts) := by
  unfold calculateContextRecall
  exact det_ite (det_pure _) (det_ite (det_pure _) (det_bind (det_recallLoop hw ..) (fun _ => det_lift _)))

theorem det_precision (sys query : String) (ps gts : List String) : Det (calculateContextPrecision w sys query ps gts) := by
  unfold calculateContextPrecision
  exact det_ite (det_pure _) (det_ite (det_pure _) (det_bind (det_precisionLoop hw ..) (fun _ => det_pure _)))

theorem det_relevance (sys query response : String) : Det (calculateAnswerRelevance w sys query response) := by
  unfold calculateAnswerRelevance
  exact det_bind (det_statements hw ..) (fun _ => det_bind (det_verdicts hw ..) (fun _ => det_ite (det_pure _) (det_lift _)))

theorem det_bias (sys response : String) : Det (calculateBias w sys response) := by
  unfold calculateBias
  exact det_bind (det_opinions hw ..) (fun _ => det_ite (det_pure _) (det_bind (det_verdicts hw ..) (fun _ => det_lift _)))

theorem det_toxicity (sys response : String) : Det (calculateToxicity w sys response) := by
  unfold calculateToxicity
  exact det_bind (det_opinions hw ..) (fun _ => det_ite (det_pure _) (det_bind (det_verdicts hw ..) (fun _ => det_lift _)))

theorem det_contextRelevance (sys query : String) (ps : List String) : Det (calculateContextRelevance w sys query ps) := by
  unfold calculateContextRelevance
  exact det_ite (det_pure _) (det_bind (det_verdicts hw ..) (fun _ => det_lift _))

theorem det_faithfulness (sys response : String) (ps : List String) : Det (calculateFaithfulness w sys response ps) := by
  unfold calculateFaithfulness
  exact det_ite (det_pure _) (det_bind (det_claims hw ..) (fun _ => det_ite (det_pure _) (det_bind (det_verdicts hw ..) (fun _ => det_lift _))))

theorem det_hallucination (sys response : String) (ps : List String) : Det (calculateHallucination w sys response ps) := by
  unfold calculateHallucination
  exact det_ite (det_raise _) (det_bind (det_verdicts hw ..) (fun _ => det_lift _))

theorem det_coherence (sys text summary : String) : Det (calculateSummaryCoherence w sys text summary) := by
  unfold calculateSummaryCoherence generateSummaryCoherence
  refine det_bind (det_ask hw _) (fun _ => det_bind (det_lift _) (fun r => ?_))
  cases r with
  | none => exact det_raise _
  | some n => exact det_ite (det_raise _) (det_pure _)

end

theorem det_retryLoop {fn : Run σ Metric} (h : Det fn) (model : String) (r : Int) (n : Nat) (failed : Bool) : Det (retryLoop fn model r n failed) := by
  induction n generalizing failed with
  | zero => exact det_pure _
  | succ n ih =>
    constructor
    intro s s'
    have hs := h.same s s'
    simp only [retryLoop]
    rcases h1 : fn s with ⟨x, s1⟩
    rcases h2 : fn s' with ⟨x', s2⟩
    rw [h1, h2] at hs
    simp only at hs
    subst hs
    cases x with
    | ok m => rfl
    | error e =>
      cases e with
      | invalid => exact (ih true).same s1 s2
      | _ => rfl

theorem det_guided {ev : Evaluator σ} {fn : World σ → String → Run σ Metric} (h : ∀ c model, ev.client = some c → Det (fn c.world model)) :
    Det (llmGuidedMetric ev fn) := by
  unfold llmGuidedMetric
  cases hc : ev.client with
  | none => exact det_raise _
  | some c =>
    simp only
    cases hm : c.modelName with
    | none => exact det_raise _
    | some model => exact det_retryLoop (h c model hc) ..

theorem det_context (qr : QueryResponse) : Det (needContext qr : Run σ Context) := by
  unfold needContext
  split
  · exact det_raise _
  · exact det_pure _

/-- **C114 (repeated computation).** If the LLM always answers the same message in the same way, each of the ten guided metrics has the same
outcome (score, error metric or exception) whenever it is computed, whatever was asked before. -/
theorem C114_repeat (ev : Evaluator σ) (hev : ∀ c, ev.client = some c → Steady c.world) (qr : QueryResponse) :
    ∀ compute ∈ [computeAnswerCorrectness, computeAnswerRelevance, computeBias, computeContextPrecision, computeContextRecall,
      computeContextRelevance, computeFaithfulness, computeHallucination, computeSummaryCoherence, computeToxicity],
    ∀ s s' : σ, (compute ev qr s).1 = (compute ev qr s').1 := by
  intro compute hc
  simp only [List.mem_cons, List.not_mem_nil, or_false] at hc
  suffices h : Det (compute ev qr) from h.same
  rcases hc with rfl | rfl | rfl | rfl | rfl | rfl | rfl | rfl | rfl | rfl
  · exact det_guided (fun c model h => det_bind (det_context qr) (fun _ => det_bind (det_correctness (hev c h) ..) (fun _ => det_pure _)))
  · exact det_guided (fun c model h => det_bind (det_relevance (hev c h) ..) (fun _ => det_pure _))
  · exact det_guided (fun c model h => det_bind (det_bias (hev c h) ..) (fun _ => det_pure _))
  · exact det_guided (fun c model h => det_bind (det_context qr) (fun _ => det_bind (det_precision (hev c h) ..) (fun _ => det_pure _)))
  · exact det_guided (fun c model h => det_bind (det_context qr) (fun _ => det_bind (det_recall (hev c h) ..) (fun _ => det_pure _)))
  · exact det_guided (fun c model h => det_bind (det_context qr) (fun _ => det_bind (det_contextRelevance (hev c h) ..) (fun _ => det_pure _)))
  · exact det_guided (fun c model h => det_bind (det_context qr) (fun _ => det_bind (det_faithfulness (hev c h) ..) (fun _ => det_pure _)))
  · exact det_guided (fun c model h => det_bind (det_context qr) (fun _ => det_bind (det_hallucination (hev c h) ..) (fun _ => det_pure _)))
  · exact det_guided (fun c model h => det_bind (det_coherence (hev c h) ..) (fun _ => det_pure _))
  · exact det_guided (fun c model h => det_bind (det_toxicity (hev c h) ..) (fun _ => det_pure _))

/-! ## Several ground truths -/

/-- With a steady LLM the wrapper reports what the first attempt gives. -/
theorem guided_val {w : World σ} (model sys : String) (retries : Nat) (fn : World σ → String → Run σ Metric) (hd : Det (fn w model)) (s : σ)
    (t e : String) (x : Rat) (r : Int) :
    (llmGuidedMetric (evaluator w model sys retries) fn s).1 = .ok (some (.value t x e r)) ↔ (fn w model s).1 = .ok (.value t x e r) := by
  by_cases h : (fn w model s).1 = .error .invalid
  · rw [C41_exhausted w model sys retries fn s (fun j _ => by rw [outcome, hd.same _ s]; exact h), h]
    simp
  · rw [C41_first w model sys retries 0 fn s (Nat.zero_le _) (by omega) h]
    simp only [outcome, before]
    cases (fn w model s).1 with
    | ok m => simp [Except.map]
    | error e => simp [Except.map]

theorem scores_ctx {w : World σ} (model sys q a t' : String) (retries : Nat) (c : Context) (act : World σ → Context → Run σ Rat)
    (hd : Det (act w c)) (s : σ) (x : Rat) :
    Scores (llmGuidedMetric (evaluator w model sys retries) (fun w model => do
      let c ← needContext ⟨q, a, some c⟩
      let y ← act w c
      return .value t' y model retries)) s x ↔ (act w c s).1 = .ok x := by
  have hdet : Det (do
      let c ← needContext ⟨q, a, some c⟩
      let y ← act w c
      return .value t' y model retries : Run σ Metric) := by
    constructor
    intro s s'
    exact (det_bind hd (fun y => det_pure (Metric.value t' y model (retries : Int)))).same s s'
  unfold Scores
  simp only [guided_val model sys retries (fun w model => do
      let c ← needContext ⟨q, a, some c⟩
      let y ← act w c
      return .value t' y model (retries : Int)) hdet s]
  have hb : ∀ t e r, ((do
      let c ← needContext ⟨q, a, some c⟩
      let y ← act w c
      return .value t' y model (retries : Int) : Run σ Metric) s).1 = .ok (.value t x e r) ↔
      ∃ y, (act w c s).1 = .ok y ∧ Metric.value t' y model (retries : Int) = .value t x e r := by
    intro t e r
    refine Iff.trans (bind_val (m := act w c) (f := fun y => pure (Metric.value t' y model (retries : Int))) (fun y => det_pure _) s _) ?_
    refine exists_congr (fun y => and_congr_right (fun _ => ?_))
    change (Except.ok _ : Except PyErr Metric) = .ok _ ↔ _
    rw [Except.ok.injEq]
  simp only [hb]
  constructor
  · rintro ⟨t, e, r, y, h1, h2⟩
    simp only [Metric.value.injEq] at h2
    rw [h1, h2.2.1]
  · intro h
    exact ⟨t', model, retries, x, h, rfl⟩

theorem forall₂_mem_right {R : α → β → Prop} {l : List α} {m : List β} (h : List.Forall₂ R l m) {b : β} (hb : b ∈ m) : ∃ a ∈ l, R a b := by
  induction h with
  | nil => simp at hb
  | cons h1 _ ih =>
    rcases List.mem_cons.1 hb with rfl | hb
    · exact ⟨_, by simp, h1⟩
    · obtain ⟨a, h2, h3⟩ := ih hb
      exact ⟨a, List.mem_cons_of_mem _ h2, h3⟩

theorem forall₂_mem_left {R : α → β → Prop} {l : List α} {m : List β} (h : List.Forall₂ R l m) {a : α} (ha : a ∈ l) : ∃ b ∈ m, R a b := by
  obtain ⟨b, h1, h2⟩ := forall₂_mem_right h.flip ha
  exact ⟨b, h1, h2⟩

theorem f1Score_nonneg (a b c : Nat) : 0 ≤ f1Score a b c := by
  unfold f1Score
  split
  · positivity
  · exact le_refl _

section
variable {w : World σ} (hw : Steady w)

/-- The answer correctness for one ground truth, given the statements of the response. -/
def One (w : World σ) (sys query : String) (preds : List String) (s : σ) (g : String) (y : Rat) : Prop :=
  ∃ stmts v, (generateStatements w sys g s).1 = .ok stmts ∧ (generateAnswerCorrectnessVerdicts w sys query preds stmts s).1 = .ok v ∧
    y = f1Score v.1.length v.2.1.length v.2.2.length

include hw

theorem correctnessLoop_val (sys query : String) (preds gts : List String) (s : σ) (xs : List Rat) :
    (answerCorrectnessLoop w sys query preds gts s).1 = .ok xs ↔ List.Forall₂ (One w sys query preds s) gts xs := by
  induction gts generalizing xs with
  | nil =>
    rw [List.forall₂_nil_left_iff]
    change (Except.ok [] : Except PyErr (List Rat)) = .ok xs ↔ _
    rw [Except.ok.injEq, eq_comm]
  | cons g gs ih =>
    rw [answerCorrectnessLoop, bind_val (fun _ => det_bind (det_correctnessVerdicts hw ..) (fun _ => det_bind (det_correctnessLoop hw ..) (fun _ => det_pure _)))]
    simp only [bind_val (fun _ => det_bind (det_correctnessLoop hw ..) (fun _ => det_pure _)), bind_val (fun _ => det_pure _), ih]
    constructor
    · rintro ⟨stmts, h1, v, h2, rest, h3, h4⟩
      have : f1Score v.1.length v.2.1.length v.2.2.length :: rest = xs := Except.ok.inj h4
      subst this
      exact .cons ⟨stmts, v, h1, h2, rfl⟩ h3
    · intro h
      cases h with
      | cons h1 h2 =>
        obtain ⟨stmts, v, h3, h4, rfl⟩ := h1
        exact ⟨stmts, h3, v, h4, _, h2, rfl⟩

theorem correctness_val (sys query response : String) (gts : List String) (s : σ) (x : Rat) :
    (calculateAnswerCorrectness w sys query response gts s).1 = .ok x ↔
      ∃ preds xs, (generateStatements w sys response s).1 = .ok preds ∧ List.Forall₂ (One w sys query preds s) gts xs ∧ IsMax x (0 :: xs) := by
  rw [calculateAnswerCorrectness, bind_val (fun _ => det_bind (det_correctnessLoop hw ..) (fun _ => det_lift _))]
  simp only [bind_val (fun _ => det_lift _), correctnessLoop_val hw]
  constructor
  · rintro ⟨preds, h1, xs, h2, h3⟩
    exact ⟨preds, xs, h1, h2, (pyMax_ok _ _).1 h3⟩
  · rintro ⟨preds, xs, h1, h2, h3⟩
    exact ⟨preds, h1, xs, h2, (pyMax_ok _ _).2 h3⟩

omit hw in
theorem one_nonneg {sys query : String} {preds : List String} {s : σ} {g : String} {y : Rat} (h : One w sys query preds s g y) : 0 ≤ y := by
  obtain ⟨_, v, _, _, rfl⟩ := h
  exact f1Score_nonneg _ _ _

theorem correctness_one (sys query response g : String) (s : σ) (y : Rat) :
    (calculateAnswerCorrectness w sys query response [g] s).1 = .ok y ↔
      ∃ preds, (generateStatements w sys response s).1 = .ok preds ∧ One w sys query preds s g y := by
  rw [correctness_val hw]
  refine exists_congr (fun preds => ?_)
  constructor
  · rintro ⟨xs, h1, h2, h3⟩
    cases h2 with
    | @cons _ z _ _ h4 h5 =>
      cases h5
      refine ⟨h1, ?_⟩
      have hz := one_nonneg h4
      have : y = z := by
        rcases List.mem_cons.1 h3.1 with h | h
        · have := h3.2 z (by simp)
          exact le_antisymm (by rw [h]; exact hz) this
        · simpa using h
      rw [this]
      exact h4
  · rintro ⟨h1, h2⟩
    refine ⟨[y], h1, .cons h2 .nil, by simp, ?_⟩
    have := one_nonneg h2
    simpa using this

/-- The best of several. -/
theorem correctness_best (sys query response : String) {gts : List String} (hg : gts ≠ []) (s : σ) (x : Rat) :
    (calculateAnswerCorrectness w sys query response gts s).1 = .ok x ↔
      ∃ xs, List.Forall₂ (fun g y => (calculateAnswerCorrectness w sys query response [g] s).1 = .ok y) gts xs ∧ IsMax x xs := by
  rw [correctness_val hw]
  simp only [correctness_one hw]
  constructor
  · rintro ⟨preds, xs, h1, h2, h3⟩
    refine ⟨xs, h2.imp (fun g y h => ⟨preds, h1, h⟩), ?_, fun y hy => h3.2 y (List.mem_cons_of_mem _ hy)⟩
    rcases List.mem_cons.1 h3.1 with h | h
    · cases h2 with
      | nil => exact absurd rfl hg
      | @cons _ z _ _ h4 _ =>
        have hz := one_nonneg h4
        have := h3.2 z (by simp)
        have : z = x := le_antisymm this (by rw [h]; exact hz)
        rw [this]
        simp
    · exact h
  · rintro ⟨xs, h1, h2⟩
    have hp : ∃ preds, (generateStatements w sys response s).1 = .ok preds := by
      cases h1 with
      | nil => exact absurd rfl hg
      | cons h _ => obtain ⟨preds, h, _⟩ := h; exact ⟨preds, h⟩
    obtain ⟨preds, hp⟩ := hp
    have h3 : List.Forall₂ (One w sys query preds s) gts xs := h1.imp (fun g y h => by
      obtain ⟨preds', h4, h5⟩ := h
      rw [hp, Except.ok.injEq] at h4
      rw [h4]
      exact h5)
    refine ⟨preds, xs, hp, h3, List.mem_cons_of_mem _ h2.1, ?_⟩
    intro y hy
    rcases List.mem_cons.1 hy with rfl | hy
    · obtain ⟨g, _, hgx⟩ := forall₂_mem_right h3 h2.1
      exact one_nonneg hgx
    · exact h2.2 y hy

/-- The context recall for one ground truth. -/
def OneRecall (w : World σ) (sys : String) (ps : List String) (s : σ) (g : String) (y : Rat) : Prop :=
  ∃ stmts v, (generateStatements w sys g s).1 = .ok stmts ∧ (generateContextRecallVerdicts w sys ps stmts s).1 = .ok v ∧ yesShare v = .ok y

theorem det_recallVerdicts (sys : String) (ps stmts : List String) : Det (generateContextRecallVerdicts w sys ps stmts) := det_verdicts hw ..

theorem recallLoop_val (sys : String) (ps gts : List String) (s : σ) (xs : List Rat) :
    (contextRecallLoop w sys ps gts s).1 = .ok xs ↔ List.Forall₂ (OneRecall w sys ps s) gts xs := by
  induction gts generalizing xs with
  | nil =>
    rw [List.forall₂_nil_left_iff]
    change (Except.ok [] : Except PyErr (List Rat)) = .ok xs ↔ _
    rw [Except.ok.injEq, eq_comm]
  | cons g gs ih =>
    rw [contextRecallLoop, bind_val (fun _ => det_bind (det_recallVerdicts hw ..) (fun _ => det_bind (det_lift _) (fun _ =>
      det_bind (det_recallLoop hw ..) (fun _ => det_pure _))))]
    simp only [bind_val (fun _ => det_bind (det_lift _) (fun _ => det_bind (det_recallLoop hw ..) (fun _ => det_pure _))),
      bind_val (fun _ => det_bind (det_recallLoop hw ..) (fun _ => det_pure _)), bind_val (fun _ => det_pure _), ih]
    constructor
    · rintro ⟨stmts, h1, v, h2, y, h3, rest, h4, h5⟩
      have : y :: rest = xs := Except.ok.inj h5
      subst this
      exact .cons ⟨stmts, v, h1, h2, h3⟩ h4
    · intro h
      cases h with
      | cons h1 h2 =>
        obtain ⟨stmts, v, h3, h4, h5⟩ := h1
        exact ⟨stmts, h3, v, h4, _, h5, _, h2, rfl⟩

theorem recall_val (sys : String) {ps gts : List String} (hp : ps ≠ []) (hg : gts ≠ []) (s : σ) (x : Rat) :
    (calculateContextRecall w sys ps gts s).1 = .ok x ↔ ∃ xs, List.Forall₂ (OneRecall w sys ps s) gts xs ∧ IsMax x xs := by
  unfold calculateContextRecall
  simp only [List.length_eq_zero_iff]
  rw [if_neg (by simp [hp]), if_neg (by simp [hp, hg]), bind_val (fun _ => det_lift _)]
  simp only [recallLoop_val hw]
  exact exists_congr (fun xs => and_congr_right (fun _ => pyMax_ok _ _))

theorem recall_best (sys : String) {ps gts : List String} (hg : gts ≠ []) (s : σ) (x : Rat) :
    (calculateContextRecall w sys ps gts s).1 = .ok x ↔
      ∃ xs, List.Forall₂ (fun g y => (calculateContextRecall w sys ps [g] s).1 = .ok y) gts xs ∧ IsMax x xs := by
  by_cases hp : ps = []
  · have hz : ∀ gs : List String, gs ≠ [] → ∀ y, (calculateContextRecall w sys ps gs s).1 = .ok y ↔ y = 0 := by
      intro gs hgs y
      unfold calculateContextRecall
      simp only [List.length_eq_zero_iff]
      rw [if_neg (by simp [hgs]), if_pos (Or.inl hp)]
      change (Except.ok 0 : Except PyErr Rat) = .ok y ↔ _
      rw [Except.ok.injEq, eq_comm]
    rw [hz gts hg]
    simp only [hz [_] (by simp)]
    constructor
    · rintro rfl
      refine ⟨List.replicate gts.length 0, ?_, ?_⟩
      · clear hg
        induction gts with
        | nil => exact .nil
        | cons g gs ih => exact .cons rfl ih
      · refine ⟨List.mem_replicate.2 ⟨fun h => hg (List.length_eq_zero_iff.1 h), rfl⟩, fun y hy => ?_⟩
        rw [List.eq_of_mem_replicate hy]
    · rintro ⟨xs, h1, h2⟩
      obtain ⟨_, _, h⟩ := forall₂_mem_right h1 h2.1
      exact h
  · rw [recall_val hw sys hp hg]
    have hone : ∀ g y, (calculateContextRecall w sys ps [g] s).1 = .ok y ↔ OneRecall w sys ps s g y := by
      intro g y
      rw [recall_val hw sys hp (by simp)]
      constructor
      · rintro ⟨xs, h1, h2⟩
        cases h1 with
        | cons h3 h4 =>
          cases h4
          have := h2.1
          rw [List.mem_singleton] at this
          rw [this]
          exact h3
      · intro h
        exact ⟨[y], .cons h .nil, by simp [IsMax]⟩
    simp only [hone]

end

/-! ### Order and number of the ground truths -/

theorem Scores.unique {m : Run σ (Option Metric)} {s : σ} {x y : Rat} (h : Scores m s x) (h' : Scores m s y) : x = y := by
  obtain ⟨t, e, r, h1⟩ := h
  obtain ⟨t', e', r', h2⟩ := h'
  rw [h1] at h2
  simp only [Except.ok.injEq, Option.some.injEq, Metric.value.injEq] at h2
  exact h2.2.1

theorem forall₂_exists {R : α → β → Prop} {l : List α} (h : ∀ a ∈ l, ∃ b, R a b) : ∃ m, List.Forall₂ R l m := by
  induction l with
  | nil => exact ⟨[], .nil⟩
  | cons a l ih =>
    obtain ⟨b, hb⟩ := h a (by simp)
    obtain ⟨m, hm⟩ := ih (fun a' ha => h a' (List.mem_cons_of_mem _ ha))
    exact ⟨b :: m, .cons hb hm⟩

theorem best_mono {R : α → Rat → Prop} (hR : ∀ a x y, R a x → R a y → x = y) {l l' : List α} (hl : ∀ a ∈ l, a ∈ l') {xs ys : List Rat} {x y : Rat}
    (h1 : List.Forall₂ R l xs) (hx : IsMax x xs) (h2 : List.Forall₂ R l' ys) (hy : IsMax y ys) : x ≤ y := by
  obtain ⟨a, ha, hax⟩ := forall₂_mem_right h1 hx.1
  obtain ⟨z, hz, haz⟩ := forall₂_mem_left h2 (hl a ha)
  rw [hR a x z hax haz]
  exact hy.2 z hz

theorem best_same {R : α → Rat → Prop} (hR : ∀ a x y, R a x → R a y → x = y) {l l' : List α} (hl : ∀ a, a ∈ l ↔ a ∈ l') {x : Rat}
    (h : ∃ xs, List.Forall₂ R l xs ∧ IsMax x xs) : ∃ xs, List.Forall₂ R l' xs ∧ IsMax x xs := by
  obtain ⟨xs, h1, hx⟩ := h
  obtain ⟨ys, h2⟩ := forall₂_exists (R := R) (l := l') (fun a ha => by
    obtain ⟨b, _, hb⟩ := forall₂_mem_left h1 ((hl a).2 ha)
    exact ⟨b, hb⟩)
  refine ⟨ys, h2, ?_, ?_⟩
  · obtain ⟨a, ha, hax⟩ := forall₂_mem_right h1 hx.1
    obtain ⟨z, hz, haz⟩ := forall₂_mem_left h2 ((hl a).1 ha)
    rw [hR a x z hax haz]
    exact hz
  · intro y hy
    obtain ⟨a, ha, hay⟩ := forall₂_mem_right h2 hy
    obtain ⟨z, hz, haz⟩ := forall₂_mem_left h1 ((hl a).2 ha)
    rw [hR a y z hay haz]
    exact hx.2 z hz

/-- The LLM's verdicts about the contexts for one ground truth. -/
def RowOf (w : World σ) (sys query : String) (ctx : List String) (g : String) (vs : List String) : Prop :=
  (∃ d, (∀ s, ∃ s1, Asks w s ⟨sys, .contextPrecision query ctx g⟩ d s1) ∧ HasVerdicts ["yes", "no"] d vs) ∧ vs.length = ctx.length

theorem Asks.anywhere {w : World σ} (hw : Steady w) {s s' : σ} {m : Message} {d : Dict} (h : Asks w s m d s') (s0 : σ) : ∃ s1, Asks w s0 m d s1 := by
  obtain ⟨text, t, h1, h2, h3⟩ := h
  refine ⟨(w.call s0 m).2, text, t, ?_, h2, h3⟩
  have := hw m s0 s
  rw [h1] at this
  exact Prod.ext this rfl

theorem judged_rows {w : World σ} (hw : Steady w) {sys query : String} {ctx gts : List String} {s s' : σ} {rows : List (List String)}
    (h : Judged w sys query ctx s gts rows s') : List.Forall₂ (RowOf w sys query ctx) gts rows := by
  induction h with
  | nil => exact .nil
  | cons h1 h2 h3 _ ih => exact .cons ⟨⟨_, fun s0 => h1.anywhere hw s0, h2⟩, h3⟩ ih

theorem rows_judged {w : World σ} {sys query : String} {ctx gts : List String} {rows : List (List String)}
    (h : List.Forall₂ (RowOf w sys query ctx) gts rows) (s : σ) : ∃ s', Judged w sys query ctx s gts rows s' := by
  induction h generalizing s with
  | nil => exact ⟨s, .nil s⟩
  | cons h1 _ ih =>
    obtain ⟨⟨d, h2, h3⟩, h4⟩ := h1
    obtain ⟨s1, h5⟩ := h2 s
    obtain ⟨s', h6⟩ := ih s1
    exact ⟨s', .cons h5 h3 h4 h6⟩

theorem entry_unique {al : List String} {xs : List Json} {vs ws : List String} (h : List.Forall₂ (Entry al) xs vs) (h' : List.Forall₂ (Entry al) xs ws) : vs = ws := by
  induction h generalizing ws with
  | nil => cases h'; rfl
  | cons h1 _ ih =>
    cases h' with
    | cons h2 h3 =>
      obtain ⟨k1, e1, _, e2, _⟩ := h1
      obtain ⟨k2, e3, _, e4, _⟩ := h2
      rw [e1, Json.obj.injEq] at e3
      subst e3
      rw [e2, Option.some.injEq, Json.str.injEq] at e4
      rw [e4, ih h3]

theorem row_unique {w : World σ} (s : σ) {sys query : String} {ctx : List String} {g : String} {vs ws : List String} (h : RowOf w sys query ctx g vs)
    (h' : RowOf w sys query ctx g ws) : vs = ws := by
  obtain ⟨⟨d, h1, xs, h2, h3⟩, _⟩ := h
  obtain ⟨⟨d', h1', xs', h2', h3'⟩, _⟩ := h'
  obtain ⟨s1, text, t, a1, a2, a3⟩ := h1 s
  obtain ⟨s2, text', t', b1, b2, b3⟩ := h1' s
  rw [a1, Prod.mk.injEq, Except.ok.injEq] at b1
  obtain ⟨rfl, _⟩ := b1
  rw [a2, Option.some.injEq] at b2
  subst b2
  rw [a3, Except.ok.injEq] at b3
  subst b3
  rw [h2, Option.some.injEq, Json.arr.injEq] at h2'
  subst h2'
  exact entry_unique h3 h3'

theorem precision_same {w : World σ} (hw : Steady w) (sys query : String) (ctx : List String) {gts gts' : List String} (hl : ∀ g, g ∈ gts ↔ g ∈ gts')
    (s : σ) (x : Rat) (h : (calculateContextPrecision w sys query ctx gts s).1 = .ok x) :
    (calculateContextPrecision w sys query ctx gts' s).1 = .ok x := by
  have hnil : gts = [] ↔ gts' = [] := by
    simp only [List.eq_nil_iff_forall_not_mem, hl]
  have h0 : calculateContextPrecision w sys query ctx gts s = (.ok x, (calculateContextPrecision w sys query ctx gts s).2) := Prod.ext h rfl
  suffices hs : ∃ s', calculateContextPrecision w sys query ctx gts' s = (.ok x, s') by
    obtain ⟨s', hs⟩ := hs
    rw [hs]
  simp only [C43_context_precision] at h0 ⊢
  rcases h0 with ⟨h1, h2, h3, _⟩ | ⟨h1, h2, h3, _⟩ | ⟨h1, h2, h3, _⟩ | ⟨h1, h2, rows, h3, h4⟩
  · exact ⟨s, Or.inl ⟨h1, hnil.1 h2, h3, rfl⟩⟩
  · exact ⟨s, Or.inr (Or.inl ⟨h1, fun h => h2 (hnil.2 h), h3, rfl⟩)⟩
  · exact ⟨s, Or.inr (Or.inr (Or.inl ⟨h1, hnil.1 h2, h3, rfl⟩))⟩
  · have hr := judged_rows hw h3
    obtain ⟨rows', hr'⟩ := forall₂_exists (R := RowOf w sys query ctx) (l := gts') (fun g hg => by
      obtain ⟨vs, _, hv⟩ := forall₂_mem_left hr ((hl g).2 hg)
      exact ⟨vs, hv⟩)
    obtain ⟨s', hj⟩ := rows_judged hr' s
    have hmem : ∀ vs, vs ∈ rows ↔ vs ∈ rows' := by
      intro vs
      constructor
      · intro hv
        obtain ⟨g, hg, hgv⟩ := forall₂_mem_right hr hv
        obtain ⟨ws, hw1, hw2⟩ := forall₂_mem_left hr' ((hl g).1 hg)
        rw [row_unique s hgv hw2]
        exact hw1
      · intro hv
        obtain ⟨g, hg, hgv⟩ := forall₂_mem_right hr' hv
        obtain ⟨ws, hw1, hw2⟩ := forall₂_mem_left hr ((hl g).2 hg)
        rw [row_unique s hgv hw2]
        exact hw1
    refine ⟨s', Or.inr (Or.inr (Or.inr ⟨h1, fun h => h2 (hnil.2 h), rows', hj, ?_⟩))⟩
    rw [h4]
    congr 1
    apply List.map_congr_left
    intro i _
    rw [Bool.eq_iff_iff, List.any_eq_true, List.any_eq_true]
    simp only [hmem]

section
variable {w : World σ} (hw : Steady w) (model sys q a : String) (retries : Nat) (ps : List String)
include hw

/-- **C114 (answer correctness).** With a steady LLM the answer correctness for several ground truths is the largest one of those for each
ground truth alone. -/
theorem C114_answer_correctness {gts : List String} (hg : gts ≠ []) (s : σ) (x : Rat) :
    Scores (computeAnswerCorrectness (evaluator w model sys retries) ⟨q, a, some ⟨gts, ps⟩⟩) s x ↔
      ∃ xs, List.Forall₂ (fun g y => Scores (computeAnswerCorrectness (evaluator w model sys retries) ⟨q, a, some ⟨[g], ps⟩⟩) s y) gts xs ∧ IsMax x xs := by
  have h : ∀ gs y, Scores (computeAnswerCorrectness (evaluator w model sys retries) ⟨q, a, some ⟨gs, ps⟩⟩) s y ↔
      (calculateAnswerCorrectness w sys q a gs s).1 = .ok y := fun gs y =>
    scores_ctx model sys q a "AnswerCorrectness" retries ⟨gs, ps⟩ (fun w c => calculateAnswerCorrectness w sys q a c.groundtruth) (det_correctness hw ..) s y
  simp only [h]
  exact correctness_best hw sys q a hg s x

/-- **C114 (context recall).** The same for context recall. -/
theorem C114_context_recall {gts : List String} (hg : gts ≠ []) (s : σ) (x : Rat) :
    Scores (computeContextRecall (evaluator w model sys retries) ⟨q, a, some ⟨gts, ps⟩⟩) s x ↔
      ∃ xs, List.Forall₂ (fun g y => Scores (computeContextRecall (evaluator w model sys retries) ⟨q, a, some ⟨[g], ps⟩⟩) s y) gts xs ∧ IsMax x xs := by
  have h : ∀ gs y, Scores (computeContextRecall (evaluator w model sys retries) ⟨q, a, some ⟨gs, ps⟩⟩) s y ↔
      (calculateContextRecall w sys ps gs s).1 = .ok y := fun gs y =>
    scores_ctx model sys q a "ContextRecall" retries ⟨gs, ps⟩ (fun w c => calculateContextRecall w sys c.prediction c.groundtruth) (det_recall hw ..) s y
  simp only [h]
  exact recall_best hw sys hg s x

/-- **C114 (more ground truths).** With a steady LLM further ground truths never lower answer correctness and context recall. -/
theorem C114_more {gts gts' : List String} (hg : gts ≠ []) (hl : ∀ g ∈ gts, g ∈ gts') (s : σ) (x x' : Rat) :
    (Scores (computeAnswerCorrectness (evaluator w model sys retries) ⟨q, a, some ⟨gts, ps⟩⟩) s x →
      Scores (computeAnswerCorrectness (evaluator w model sys retries) ⟨q, a, some ⟨gts', ps⟩⟩) s x' → x ≤ x') ∧
    (Scores (computeContextRecall (evaluator w model sys retries) ⟨q, a, some ⟨gts, ps⟩⟩) s x →
      Scores (computeContextRecall (evaluator w model sys retries) ⟨q, a, some ⟨gts', ps⟩⟩) s x' → x ≤ x') := by
  have hg' : gts' ≠ [] := by
    rintro rfl
    exact hg (List.eq_nil_iff_forall_not_mem.2 (fun g hgm => by simpa using hl g hgm))
  constructor
  · intro h h'
    obtain ⟨xs, h1, h2⟩ := (C114_answer_correctness hw model sys q a retries ps hg s x).1 h
    obtain ⟨ys, h3, h4⟩ := (C114_answer_correctness hw model sys q a retries ps hg' s x').1 h'
    exact best_mono (fun _ _ _ k1 k2 => k1.unique k2) hl h1 h2 h3 h4
  · intro h h'
    obtain ⟨xs, h1, h2⟩ := (C114_context_recall hw model sys q a retries ps hg s x).1 h
    obtain ⟨ys, h3, h4⟩ := (C114_context_recall hw model sys q a retries ps hg' s x').1 h'
    exact best_mono (fun _ _ _ k1 k2 => k1.unique k2) hl h1 h2 h3 h4

/-- **C114 (order and repetition).** With a steady LLM neither the order of the ground truths nor repeating one of them changes answer
correctness, context recall and context precision. -/
theorem C114_order {gts gts' : List String} (hl : ∀ g, g ∈ gts ↔ g ∈ gts') :
    ∀ compute ∈ [computeAnswerCorrectness, computeContextRecall, computeContextPrecision], ∀ (s : σ) (x : Rat),
      Scores (compute (evaluator w model sys retries) ⟨q, a, some ⟨gts, ps⟩⟩) s x ↔
        Scores (compute (evaluator w model sys retries) ⟨q, a, some ⟨gts', ps⟩⟩) s x := by
  by_cases hg : gts = []
  · subst hg
    have : gts' = [] := List.eq_nil_iff_forall_not_mem.2 (fun g hgm => by simpa using (hl g).2 hgm)
    subst this
    intros
    exact Iff.rfl
  have hg' : gts' ≠ [] := by
    rintro rfl
    exact hg (List.eq_nil_iff_forall_not_mem.2 (fun g hgm => by simpa using (hl g).1 hgm))
  intro compute hc s x
  simp only [List.mem_cons, List.not_mem_nil, or_false] at hc
  rcases hc with rfl | rfl | rfl
  · rw [C114_answer_correctness hw model sys q a retries ps hg s x, C114_answer_correctness hw model sys q a retries ps hg' s x]
    exact ⟨best_same (fun _ _ _ k1 k2 => k1.unique k2) hl, best_same (fun _ _ _ k1 k2 => k1.unique k2) (fun g => (hl g).symm)⟩
  · rw [C114_context_recall hw model sys q a retries ps hg s x, C114_context_recall hw model sys q a retries ps hg' s x]
    exact ⟨best_same (fun _ _ _ k1 k2 => k1.unique k2) hl, best_same (fun _ _ _ k1 k2 => k1.unique k2) (fun g => (hl g).symm)⟩
  · have h : ∀ gs y, Scores (computeContextPrecision (evaluator w model sys retries) ⟨q, a, some ⟨gs, ps⟩⟩) s y ↔
        (calculateContextPrecision w sys q ps gs s).1 = .ok y := fun gs y =>
      scores_ctx model sys q a "ContextPrecision" retries ⟨gs, ps⟩ (fun w c => calculateContextPrecision w sys q c.prediction c.groundtruth)
        (det_precision hw ..) s y
    rw [h, h]
    exact ⟨precision_same hw sys q ps hl s x, precision_same hw sys q ps (fun g => (hl g).symm) s x⟩

end

/-! ## Context precision can go down -/

/-- Further ground truths never lower context precision. -/
def MoreTruthsHelp : Prop :=
  ∀ (w : World Unit), Steady w → ∀ (model sys q a : String) (retries : Nat) (ps gts gts' : List String), gts ≠ [] → (∀ g ∈ gts, g ∈ gts') →
    ∀ x x', Scores (computeContextPrecision (evaluator w model sys retries) ⟨q, a, some ⟨gts, ps⟩⟩) () x →
      Scores (computeContextPrecision (evaluator w model sys retries) ⟨q, a, some ⟨gts', ps⟩⟩) () x' → x ≤ x'

/-- An LLM that finds the first context relevant for one ground truth and the third for another, and one of two statements of `"half"`. -/
def picky : World Unit where
  call _ m := (.ok (match m.user with
    | .contextPrecision _ _ g => (if g = "first" then
        "{\"verdicts\": [{\"verdict\": \"yes\", \"analysis\": \"\"}, {\"verdict\": \"no\", \"analysis\": \"\"}, {\"verdict\": \"no\", \"analysis\": \"\"}]}"
        else "{\"verdicts\": [{\"verdict\": \"no\", \"analysis\": \"\"}, {\"verdict\": \"no\", \"analysis\": \"\"}, {\"verdict\": \"yes\", \"analysis\": \"\"}]}").toList
    | .statements t => (if t = "half" then "{\"statements\": [\"b\", \"c\"]}" else "{\"statements\": [\"b\"]}").toList
    | .contextRecall _ ss => (if ss.length = 2 then "{\"verdicts\": [{\"verdict\": \"yes\", \"analysis\": \"\"}, {\"verdict\": \"no\", \"analysis\": \"\"}]}"
        else "{\"verdicts\": [{\"verdict\": \"yes\", \"analysis\": \"\"}]}").toList
    | .answerCorrectness _ _ ss => (if ss.length = 2 then "{\"TP\": [\"b\"], \"FP\": [], \"FN\": [\"c\"]}" else "{\"TP\": [\"b\"], \"FP\": [], \"FN\": []}").toList
    | _ => []), ())
  loads := loads 900
  digit := asciiDigit

theorem picky_steady : Steady picky := fun _ _ _ => rfl

set_option maxRecDepth 100000

/-- **C114 does not extend to context precision**: with a second ground truth a further context becomes relevant behind one that is not, and
the score goes from 1 to 5/6. -/
theorem C114_precision_violation : ¬ MoreTruthsHelp := by
  intro h
  have := h picky picky_steady "m" "sys" "q" "r" 0 ["p1", "p2", "p3"] ["first"] ["first", "third"] (by simp) (by simp) 1 (5 / 6)
    ⟨"ContextPrecision", "m", 0, by decide +kernel⟩ ⟨"ContextPrecision", "m", 0, by decide +kernel⟩
  norm_num at this

/-- The hypotheses hold: two ground truths with different scores. -/
example : Steady picky ∧
    Scores (computeAnswerCorrectness (evaluator picky "m" "sys" (1 : Nat)) ⟨"q", "r", some ⟨["half"], []⟩⟩) () (2 / 3) ∧
    Scores (computeAnswerCorrectness (evaluator picky "m" "sys" (1 : Nat)) ⟨"q", "r", some ⟨["half", "full"], []⟩⟩) () 1 ∧
    Scores (computeContextRecall (evaluator picky "m" "sys" (1 : Nat)) ⟨"q", "r", some ⟨["half"], ["p"]⟩⟩) () (1 / 2) ∧
    Scores (computeContextRecall (evaluator picky "m" "sys" (1 : Nat)) ⟨"q", "r", some ⟨["half", "full"], ["p"]⟩⟩) () 1 :=
  ⟨picky_steady, ⟨"AnswerCorrectness", "m", 1, by decide +kernel⟩, ⟨"AnswerCorrectness", "m", 1, by decide +kernel⟩,
    ⟨"ContextRecall", "m", 1, by decide +kernel⟩, ⟨"ContextRecall", "m", 1, by decide +kernel⟩⟩

end Verif.TextGen
