import Verif.TextGen.GuidedProps

/-!
# C71: what a reported number is about

C42 is about the calculations. Here the same is shown for what a user calls: the metric has the type of its method, the model
name and the number of retries of the evaluator, and its value comes from replies about the texts of this response, in the
first attempt that was valid.
-/

namespace Verif.TextGen

variable {σ : Type}

/-- `k` attempts in a row failed with an invalid response and took the world from `s` to `s0`. -/
inductive Failed {α : Type} (act : Run σ α) : Nat → σ → σ → Prop
  | zero (s : σ) : Failed act 0 s s
  | succ {k s s1 s0} (h : act s = (.error .invalid, s1)) (ht : Failed act k s1 s0) : Failed act (k + 1) s s0

theorem retryLoop_value (fn : Run σ Metric) (model : String) (retries : Int) (n : Nat) (failed : Bool) (s s' : σ)
    (t m : String) (x : Rat) (r : Int) :
    retryLoop fn model retries n failed s = (.ok (some (.value t x m r)), s') ↔
      ∃ k < n, ∃ s0, Failed fn k s s0 ∧ fn s0 = (.ok (.value t x m r), s') := by
  induction n generalizing s failed with
  | zero => cases failed <;> simp [retryLoop, pure]
  | succ n ih =>
    simp only [retryLoop]
    rcases h2 : fn s with ⟨y, s1⟩
    cases y with
    | ok mt =>
      constructor
      · intro h
        simp only [Prod.mk.injEq, Except.ok.injEq, Option.some.injEq] at h
        exact ⟨0, by omega, s, .zero s, by rw [h2, h.1, h.2]⟩
      · rintro ⟨k, hk, s0, hf, hv⟩
        cases hf with
        | zero =>
          rw [h2] at hv
          simp only [Prod.mk.injEq, Except.ok.injEq] at hv
          simp [hv.1, hv.2]
        | succ h ht => rw [h2] at h; cases h
    | error e =>
      have hgen : e ≠ .invalid → ¬ ∃ k < n + 1, ∃ s0, Failed fn k s s0 ∧ fn s0 = (.ok (.value t x m r), s') := by
        rintro he ⟨k, hk, s0, hf, hv⟩
        cases hf with
        | zero => rw [h2] at hv; cases hv
        | succ h ht =>
          rw [h2] at h
          simp only [Prod.mk.injEq, Except.error.injEq] at h
          exact he h.1
      cases e with
      | invalid =>
        simp only
        rw [ih true s1]
        constructor
        · rintro ⟨k, hk, s0, hf, hv⟩
          exact ⟨k + 1, by omega, s0, .succ h2 hf, hv⟩
        · rintro ⟨k, hk, s0, hf, hv⟩
          cases hf with
          | zero => rw [h2] at hv; cases hv
          | succ h ht =>
            rw [h2] at h
            simp only [Prod.mk.injEq, true_and] at h
            subst h
            exact ⟨_, by omega, s0, ht, hv⟩
      | _ =>
        constructor
        · intro h; simp at h
        · intro h; exact absurd h (hgen (by simp))

theorem failed_congr {α β : Type} {f : Run σ α} {g : Run σ β}
    (h : ∀ s s1, f s = (.error .invalid, s1) ↔ g s = (.error .invalid, s1)) (k : Nat) (s s0 : σ) :
    Failed f k s s0 ↔ Failed g k s s0 := by
  constructor
  · intro hf
    induction hf with
    | zero => exact .zero _
    | succ h1 _ ih => exact .succ ((h _ _).1 h1) ih
  · intro hf
    induction hf with
    | zero => exact .zero _
    | succ h1 _ ih => exact .succ ((h _ _).2 h1) ih

/-- A metric without context: what the wrapper reports. -/
theorem reported (w : World σ) (model sys type : String) (retries : Nat) (act : World σ → Run σ Rat) (s s' : σ)
    (t m : String) (x : Rat) (r : Int) :
    llmGuidedMetric (evaluator w model sys retries)
        (fun w model => do let y ← act w
                           return Metric.value type y model (evaluator w model sys retries).retries) s
          = (.ok (some (.value t x m r)), s') ↔
      (t = type ∧ m = model ∧ r = retries) ∧
        ∃ k ≤ retries, ∃ s0, Failed (act w) k s s0 ∧ act w s0 = (.ok x, s') := by
  have hn : (1 + (retries : Int)).toNat = retries + 1 := by omega
  have e : ∀ fn : World σ → String → Run σ Metric,
      llmGuidedMetric (evaluator w model sys retries) fn = retryLoop (fn w model) model retries (retries + 1) false := by
    intro fn
    simp only [llmGuidedMetric, evaluator, hn]
  rw [e, retryLoop_value]
  have hf : ∀ k s0, Failed (do let y ← act w
                               return Metric.value type y model (evaluator w model sys retries).retries : Run σ Metric) k s s0
      ↔ Failed (act w) k s s0 := by
    intro k s0
    apply failed_congr
    intro a b
    rw [bind_error]
    simp [pure_error]
  constructor
  · rintro ⟨k, hk, s0, h1, h2⟩
    obtain ⟨h3, h4, h5, h6⟩ := value_of x t type m model r _ (act w) s0 s' h2
    exact ⟨⟨h4, h5, h6⟩, k, by omega, s0, (hf k s0).1 h1, h3⟩
  · rintro ⟨⟨rfl, rfl, rfl⟩, k, hk, s0, h1, h2⟩
    exact ⟨k, by omega, s0, (hf k s0).2 h1, (bind_ok _ _ _ _ _).2 ⟨x, s', h2, (pure_ok _ _ _ _).2 ⟨rfl, rfl⟩⟩⟩

/-- A metric with context. -/
theorem reported_ctx (w : World σ) (model sys type : String) (retries : Nat) (act : World σ → Context → Run σ Rat) (qr : QueryResponse)
    (s s' : σ) (t m : String) (x : Rat) (r : Int) :
    llmGuidedMetric (evaluator w model sys retries)
        (fun w model => do let c ← needContext qr
                           let y ← act w c
                           return Metric.value type y model (evaluator w model sys retries).retries) s
          = (.ok (some (.value t x m r)), s') ↔
      (t = type ∧ m = model ∧ r = retries) ∧ ∃ c, qr.context = some c ∧
        ∃ k ≤ retries, ∃ s0, Failed (act w c) k s s0 ∧ act w c s0 = (.ok x, s') := by
  cases hc : qr.context with
  | none =>
    have : ∀ (w : World σ) (model' : String),
        (do let c ← needContext qr
            let y ← act w c
            return Metric.value type y model' (evaluator w model' sys retries).retries : Run σ Metric)
        = Run.raise .valueError := by
      intro w model'
      funext s
      simp only [needContext, hc]
      rfl
    simp only [this]
    constructor
    · intro h
      have hn : (1 + (retries : Int)).toNat = retries + 1 := by omega
      simp only [llmGuidedMetric, evaluator, hn] at h
      obtain ⟨k, -, s0, -, h2⟩ := (retryLoop_value ..).1 h
      exact absurd h2 (raise_ok _ _ _ _)
    · rintro ⟨-, c, h, -⟩; cases h
  | some c =>
    have : ∀ (w : World σ) (model' : String),
        (do let c ← needContext qr
            let y ← act w c
            return Metric.value type y model' (evaluator w model' sys retries).retries : Run σ Metric)
        = (do let y ← act w c
              return Metric.value type y model' (evaluator w model' sys retries).retries : Run σ Metric) := by
      intro w model'
      funext s
      simp only [needContext, hc]
      rfl
    simp only [this, Option.some.injEq]
    rw [reported (act := fun w => act w c)]
    constructor
    · rintro ⟨h1, h2⟩; exact ⟨h1, c, rfl, h2⟩
    · rintro ⟨h1, c', rfl, h2⟩; exact ⟨h1, h2⟩

variable (w : World σ) (model sys : String) (retries : Nat) (qr : QueryResponse) (s s' : σ) (t m : String) (x : Rat) (r : Int)

/-- C71, answer correctness: statements of the response against each ground truth of the context. -/
theorem C71_answer_correctness :
    computeAnswerCorrectness (evaluator w model sys retries) qr s = (.ok (some (.value t x m r)), s') ↔
      (t = "AnswerCorrectness" ∧ m = model ∧ r = retries) ∧ ∃ c, qr.context = some c ∧ ∃ k ≤ retries, ∃ s0,
        Failed (calculateAnswerCorrectness w sys qr.query qr.response c.groundtruth) k s s0 ∧
        ∃ d preds s1 xs, Asks w s0 ⟨sys, .statements qr.response⟩ d s1 ∧ HasStrings d "statements" preds ∧
          Chain (fun a g y b => Correctness w sys qr.query preds a g y b) s1 c.groundtruth xs s' ∧ IsMax x (0 :: xs) := by
  simp only [← C42_answer_correctness]
  exact reported_ctx w model sys _ retries
    (fun w c => calculateAnswerCorrectness w sys qr.query qr.response c.groundtruth) qr s s' t m x r

/-- C71, answer relevance: statements of the response against the query. -/
theorem C71_answer_relevance :
    computeAnswerRelevance (evaluator w model sys retries) qr s = (.ok (some (.value t x m r)), s') ↔
      (t = "AnswerRelevance" ∧ m = model ∧ r = retries) ∧ ∃ k ≤ retries, ∃ s0,
        Failed (calculateAnswerRelevance w sys qr.query qr.response) k s s0 ∧
        ∃ d stmts s1, Asks w s0 ⟨sys, .statements qr.response⟩ d s1 ∧ HasStrings d "statements" stmts ∧
          Share w s1 ⟨sys, .answerRelevance qr.query stmts⟩ ["yes", "no", "idk"] stmts.length x s' := by
  simp only [← C42_answer_relevance]
  exact reported w model sys _ retries (fun w => calculateAnswerRelevance w sys qr.query qr.response) s s' t m x r

/-- C71, bias: opinions of the response. -/
theorem C71_bias :
    computeBias (evaluator w model sys retries) qr s = (.ok (some (.value t x m r)), s') ↔
      (t = "Bias" ∧ m = model ∧ r = retries) ∧ ∃ k ≤ retries, ∃ s0, Failed (calculateBias w sys qr.response) k s s0 ∧
        ∃ d ops s1, Asks w s0 ⟨sys, .opinions qr.response⟩ d s1 ∧ HasStrings d "opinions" ops ∧
          ((ops = [] ∧ x = 0 ∧ s' = s1) ∨
            (ops ≠ [] ∧ Share w s1 ⟨sys, .bias ops⟩ ["yes", "no"] ops.length x s')) := by
  simp only [← C42_bias]
  exact reported w model sys _ retries (fun w => calculateBias w sys qr.response) s s' t m x r

/-- C71, toxicity: opinions of the response. -/
theorem C71_toxicity :
    computeToxicity (evaluator w model sys retries) qr s = (.ok (some (.value t x m r)), s') ↔
      (t = "Toxicity" ∧ m = model ∧ r = retries) ∧ ∃ k ≤ retries, ∃ s0, Failed (calculateToxicity w sys qr.response) k s s0 ∧
        ∃ d ops s1, Asks w s0 ⟨sys, .opinions qr.response⟩ d s1 ∧ HasStrings d "opinions" ops ∧
          ((ops = [] ∧ x = 0 ∧ s' = s1) ∨
            (ops ≠ [] ∧ Share w s1 ⟨sys, .toxicity ops⟩ ["yes", "no"] ops.length x s')) := by
  simp only [← C42_toxicity]
  exact reported w model sys _ retries (fun w => calculateToxicity w sys qr.response) s s' t m x r

/-- C71, context precision: the predicted contexts against query and each ground truth. -/
theorem C71_context_precision :
    computeContextPrecision (evaluator w model sys retries) qr s = (.ok (some (.value t x m r)), s') ↔
      (t = "ContextPrecision" ∧ m = model ∧ r = retries) ∧ ∃ c, qr.context = some c ∧ ∃ k ≤ retries, ∃ s0,
        Failed (calculateContextPrecision w sys qr.query c.prediction c.groundtruth) k s s0 ∧
        ((c.prediction = [] ∧ c.groundtruth = [] ∧ x = 1 ∧ s' = s0) ∨
          (c.prediction = [] ∧ c.groundtruth ≠ [] ∧ x = 0 ∧ s' = s0) ∨
          (c.prediction ≠ [] ∧ c.groundtruth = [] ∧ x = 0 ∧ s' = s0) ∨
          (c.prediction ≠ [] ∧ c.groundtruth ≠ [] ∧ ∃ rows, Judged w sys qr.query c.prediction s0 c.groundtruth rows s' ∧
            x = contextPrecisionOf ((List.range c.prediction.length).map
              (fun i => rows.any (fun vs => vs[i]? == some "yes"))))) := by
  simp only [← C43_context_precision]
  exact reported_ctx w model sys _ retries
    (fun w c => calculateContextPrecision w sys qr.query c.prediction c.groundtruth) qr s s' t m x r

/-- C71, context recall: statements of each ground truth against the predicted contexts. -/
theorem C71_context_recall :
    computeContextRecall (evaluator w model sys retries) qr s = (.ok (some (.value t x m r)), s') ↔
      (t = "ContextRecall" ∧ m = model ∧ r = retries) ∧ ∃ c, qr.context = some c ∧ ∃ k ≤ retries, ∃ s0,
        Failed (calculateContextRecall w sys c.prediction c.groundtruth) k s s0 ∧
        ((c.prediction = [] ∧ c.groundtruth = [] ∧ x = 1 ∧ s' = s0) ∨
          (c.prediction = [] ∧ c.groundtruth ≠ [] ∧ x = 0 ∧ s' = s0) ∨
          (c.prediction ≠ [] ∧ c.groundtruth = [] ∧ x = 0 ∧ s' = s0) ∨
          (c.prediction ≠ [] ∧ c.groundtruth ≠ [] ∧ ∃ xs,
            Chain (fun a g y b => Recall w sys c.prediction a g y b) s0 c.groundtruth xs s' ∧ IsMax x xs)) := by
  simp only [← C42_context_recall]
  exact reported_ctx w model sys _ retries
    (fun w c => calculateContextRecall w sys c.prediction c.groundtruth) qr s s' t m x r

/-- C71, context relevance: the predicted contexts against the query. -/
theorem C71_context_relevance :
    computeContextRelevance (evaluator w model sys retries) qr s = (.ok (some (.value t x m r)), s') ↔
      (t = "ContextRelevance" ∧ m = model ∧ r = retries) ∧ ∃ c, qr.context = some c ∧ ∃ k ≤ retries, ∃ s0,
        Failed (calculateContextRelevance w sys qr.query c.prediction) k s s0 ∧
        ((c.prediction = [] ∧ x = 0 ∧ s' = s0) ∨ (c.prediction ≠ [] ∧
          Share w s0 ⟨sys, .contextRelevance qr.query c.prediction⟩ ["yes", "no"] c.prediction.length x s')) := by
  simp only [← C42_context_relevance]
  exact reported_ctx w model sys _ retries
    (fun w c => calculateContextRelevance w sys qr.query c.prediction) qr s s' t m x r

/-- C71, faithfulness: claims of the response against the predicted contexts. -/
theorem C71_faithfulness :
    computeFaithfulness (evaluator w model sys retries) qr s = (.ok (some (.value t x m r)), s') ↔
      (t = "Faithfulness" ∧ m = model ∧ r = retries) ∧ ∃ c, qr.context = some c ∧ ∃ k ≤ retries, ∃ s0,
        Failed (calculateFaithfulness w sys qr.response c.prediction) k s s0 ∧
        ((c.prediction = [] ∧ x = 0 ∧ s' = s0) ∨ (c.prediction ≠ [] ∧
          ∃ d claims s1, Asks w s0 ⟨sys, .claims qr.response⟩ d s1 ∧ HasStrings d "claims" claims ∧
            ((claims = [] ∧ x = 1 ∧ s' = s1) ∨ (claims ≠ [] ∧
              Share w s1 ⟨sys, .faithfulness claims c.prediction⟩ ["yes", "no"] claims.length x s')))) := by
  simp only [← C42_faithfulness]
  exact reported_ctx w model sys _ retries
    (fun w c => calculateFaithfulness w sys qr.response c.prediction) qr s s' t m x r

/-- C71, hallucination: the response against each predicted context. -/
theorem C71_hallucination :
    computeHallucination (evaluator w model sys retries) qr s = (.ok (some (.value t x m r)), s') ↔
      (t = "Hallucination" ∧ m = model ∧ r = retries) ∧ ∃ c, qr.context = some c ∧ ∃ k ≤ retries, ∃ s0,
        Failed (calculateHallucination w sys qr.response c.prediction) k s s0 ∧ c.prediction ≠ [] ∧
          Share w s0 ⟨sys, .hallucination qr.response c.prediction⟩ ["yes", "no"] c.prediction.length x s' := by
  simp only [← C42_hallucination]
  exact reported_ctx w model sys _ retries
    (fun w c => calculateHallucination w sys qr.response c.prediction) qr s s' t m x r

/-- C71, summary coherence: the query is the text, the response its summary. -/
theorem C71_summary_coherence :
    computeSummaryCoherence (evaluator w model sys retries) qr s = (.ok (some (.value t x m r)), s') ↔
      (t = "SummaryCoherence" ∧ m = model ∧ r = retries) ∧ ∃ k ≤ retries, ∃ s0,
        Failed (calculateSummaryCoherence w sys qr.query qr.response) k s s0 ∧
        ∃ (n : Int) (reply : List Char), x = n ∧ w.call s0 ⟨sys, .summaryCoherence qr.query qr.response⟩ = (.ok reply, s') ∧
          findFirstSignedInteger w.digit reply = .ok (some n) ∧ 1 ≤ n ∧ n ≤ 5 := by
  have e : computeSummaryCoherence (evaluator w model sys retries) qr
      = llmGuidedMetric (evaluator w model sys retries) (fun w model => do
          let y ← (do let n ← calculateSummaryCoherence w sys qr.query qr.response
                      return (n : Rat) : Run σ Rat)
          return Metric.value "SummaryCoherence" y model (evaluator w model sys retries).retries) := by
    unfold computeSummaryCoherence
    congr 1
    funext w model s
    simp only [bind, pure, evaluator]
    rcases calculateSummaryCoherence w sys qr.query qr.response s with ⟨a | b, s1⟩ <;> rfl
  rw [e, reported (act := fun w => (do let n ← calculateSummaryCoherence w sys qr.query qr.response
                                       return (n : Rat) : Run σ Rat))]
  have hf : ∀ k s0, Failed (do let n ← calculateSummaryCoherence w sys qr.query qr.response
                               return (n : Rat) : Run σ Rat) k s s0
      ↔ Failed (calculateSummaryCoherence w sys qr.query qr.response) k s s0 := by
    intro k s0
    apply failed_congr
    intro a b
    rw [bind_error]
    simp [pure_error]
  have hv : ∀ s0, (do let n ← calculateSummaryCoherence w sys qr.query qr.response
                      return (n : Rat) : Run σ Rat) s0 = (.ok x, s') ↔
      ∃ (n : Int) (reply : List Char), x = n ∧ w.call s0 ⟨sys, .summaryCoherence qr.query qr.response⟩ = (.ok reply, s') ∧
          findFirstSignedInteger w.digit reply = .ok (some n) ∧ 1 ≤ n ∧ n ≤ 5 := by
    intro s0
    rw [bind_ok]
    constructor
    · rintro ⟨n, s1, h1, h2⟩
      rw [pure_ok] at h2
      obtain ⟨rfl, rfl⟩ := h2
      obtain ⟨reply, h3⟩ := (C42_summary_coherence ..).1 h1
      exact ⟨n, reply, rfl, h3⟩
    · rintro ⟨n, reply, rfl, h3⟩
      exact ⟨n, s', (C42_summary_coherence ..).2 ⟨reply, h3⟩, (pure_ok _ _ _ _).2 ⟨rfl, rfl⟩⟩
  simp only [hf, hv]

/-- Two attempts: the first reply of the LLM is no number, the second one is 4. -/
example : computeSummaryCoherence (evaluator (σ := Nat)
      ⟨fun s _ => (.ok (if s = 0 then ['?'] else ['4']), s + 1), fun _ => .ok [], fun c => if c = '4' then some 4 else none⟩ "m" "" (1 : Nat))
      ⟨"q", "r", none⟩ 0 = (.ok (some (.value "SummaryCoherence" 4 "m" 1)), 2) := by
  decide +kernel

end Verif.TextGen
