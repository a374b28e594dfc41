import Verif.TextGen.ScoreProps

/-!
# C41, C42 (range), C45, C48: retries, ranges, crashes, token counts
-/

namespace Verif.TextGen

variable {σ : Type} {α : Type}

/-! ## C41: the retry wrapper -/

/-- The state before attempt `k` if all attempts before it were made. -/
def before (fn : Run σ Metric) (s : σ) : Nat → σ
  | 0 => s
  | k + 1 => (fn (before fn s k)).2

/-- The outcome of attempt `k`. -/
def outcome (fn : Run σ Metric) (s : σ) (k : Nat) : Except PyErr Metric := (fn (before fn s k)).1

theorem before_succ (fn : Run σ Metric) (s : σ) (k : Nat) : before fn s (k + 1) = before fn (fn s).2 k := by
  induction k with
  | zero => rfl
  | succ k ih => rw [before, ih]; rfl

theorem outcome_succ (fn : Run σ Metric) (s : σ) (k : Nat) : outcome fn s (k + 1) = outcome fn (fn s).2 k := by
  rw [outcome, before_succ]; rfl

theorem retryLoop_stop (fn : Run σ Metric) (model : String) (r : Int) (n k : Nat) (failed : Bool) (s : σ) (hk : k < n)
    (hbefore : ∀ j < k, outcome fn s j = .error .invalid) (hstop : outcome fn s k ≠ .error .invalid) :
    retryLoop fn model r n failed s = ((outcome fn s k).map some, before fn s (k + 1)) := by
  induction n generalizing k failed s with
  | zero => omega
  | succ n ih =>
    simp only [retryLoop]
    cases k with
    | zero =>
      simp only [outcome, before] at hstop ⊢
      rcases h : fn s with ⟨x, s'⟩
      rw [h] at hstop
      cases x with
      | ok m => rfl
      | error e =>
        cases e <;> first | rfl | (simp at hstop)
    | succ k =>
      have h0 := hbefore 0 (by omega)
      simp only [outcome, before] at h0
      rcases h : fn s with ⟨x, s'⟩
      rw [h] at h0
      simp only at h0
      subst h0
      simp only
      have hs : (fn s).2 = s' := by rw [h]
      rw [ih k true s' (by omega) (fun j hj => by rw [← hs, ← outcome_succ]; exact hbefore (j + 1) (by omega))
        (by rw [← hs, ← outcome_succ]; exact hstop), ← hs, ← outcome_succ, ← before_succ]

theorem retryLoop_fail (fn : Run σ Metric) (model : String) (r : Int) (n : Nat) (failed : Bool) (s : σ)
    (hall : ∀ j < n, outcome fn s j = .error .invalid) :
    retryLoop fn model r n failed s =
      (.ok (if failed ∨ 0 < n then some (.error "InvalidLLMResponseError" model r) else none), before fn s n) := by
  induction n generalizing failed s with
  | zero => cases failed <;> rfl
  | succ n ih =>
    simp only [retryLoop]
    have h0 := hall 0 (by omega)
    simp only [outcome, before] at h0
    rcases h : fn s with ⟨x, s'⟩
    rw [h] at h0
    simp only at h0
    subst h0
    have hs : (fn s).2 = s' := by rw [h]
    simp only
    rw [ih true s' (fun j hj => by rw [← hs, ← outcome_succ]; exact hall (j + 1) (by omega)), ← hs, ← before_succ]
    simp

/-- An evaluator with a client that has a name. -/
def evaluator (w : World σ) (model sys : String) (retries : Int) : Evaluator σ :=
  ⟨some ⟨some model, w⟩, retries, sys⟩

/-- C41: if the attempts before attempt `k` (counted from 0, at most `retries`) gave invalid responses and attempt
`k` did not, then the wrapper stops there: it returns the metric of attempt `k`, or raises what attempt `k` raised. -/
theorem C41_first (w : World σ) (model sys : String) (retries k : Nat) (fn : World σ → String → Run σ Metric) (s : σ)
    (hk : k ≤ retries) (hbefore : ∀ j < k, outcome (fn w model) s j = .error .invalid)
    (hstop : outcome (fn w model) s k ≠ .error .invalid) :
    llmGuidedMetric (evaluator w model sys retries) fn s =
      ((outcome (fn w model) s k).map some, before (fn w model) s (k + 1)) := by
  have : (1 + (retries : Int)).toNat = retries + 1 := by omega
  simp only [llmGuidedMetric, evaluator, this]
  exact retryLoop_stop _ _ _ _ _ _ _ (by omega) hbefore hstop

/-- C41: if all `1 + retries` attempts gave invalid responses, then no further one is made, and an `Error` metric is
returned. -/
theorem C41_exhausted (w : World σ) (model sys : String) (retries : Nat) (fn : World σ → String → Run σ Metric) (s : σ)
    (hall : ∀ j ≤ retries, outcome (fn w model) s j = .error .invalid) :
    llmGuidedMetric (evaluator w model sys retries) fn s =
      (.ok (some (.error "InvalidLLMResponseError" model retries)), before (fn w model) s (retries + 1)) := by
  have : (1 + (retries : Int)).toNat = retries + 1 := by omega
  simp only [llmGuidedMetric, evaluator, this]
  rw [retryLoop_fail _ _ _ _ _ _ (fun j hj => hall j (by omega))]
  simp

/-- The two cases of C41 are the only ones. -/
theorem C41_cases (fn : Run σ Metric) (s : σ) (n : Nat) :
    (∀ j ≤ n, outcome fn s j = .error .invalid) ∨
      ∃ k ≤ n, (∀ j < k, outcome fn s j = .error .invalid) ∧ outcome fn s k ≠ .error .invalid := by
  induction n with
  | zero =>
    by_cases h : outcome fn s 0 = .error .invalid
    · exact Or.inl (fun j hj => by rwa [show j = 0 by omega])
    · exact Or.inr ⟨0, by omega, by omega, h⟩
  | succ n ih =>
    rcases ih with h | ⟨k, h1, h2⟩
    · by_cases h2 : outcome fn s (n + 1) = .error .invalid
      · refine Or.inl (fun j hj => ?_)
        by_cases hj2 : j ≤ n
        · exact h j hj2
        · rwa [show j = n + 1 by omega]
      · exact Or.inr ⟨n + 1, by omega, fun j hj => h j (by omega), h2⟩
    · exact Or.inr ⟨k, by omega, h2⟩

/-- C41: the wrapper never raises an invalid-response error and always returns a metric if it returns. -/
theorem C41_total (w : World σ) (model sys : String) (retries : Nat) (fn : World σ → String → Run σ Metric) (s : σ) :
    (llmGuidedMetric (evaluator w model sys retries) fn s).1 ≠ .error .invalid ∧
    (llmGuidedMetric (evaluator w model sys retries) fn s).1 ≠ .ok none := by
  rcases C41_cases (fn w model) s retries with h | ⟨k, h1, h2, h3⟩
  · rw [C41_exhausted w model sys retries fn s h]
    simp
  · rw [C41_first w model sys retries k fn s h1 h2 h3]
    cases h4 : outcome (fn w model) s k with
    | ok m => simp [Except.map]
    | error e =>
      rw [h4] at h3
      simpa [Except.map] using h3

/-- C41: an `Error` metric is returned exactly if every attempt gave an invalid response (the decorated methods never
return an `Error` metric themselves). -/
theorem C41_error_iff (w : World σ) (model sys : String) (retries : Nat) (fn : World σ → String → Run σ Metric) (s : σ)
    (hfn : ∀ s s' t m r, fn w model s ≠ (.ok (.error t m r), s')) :
    (∃ t m r, (llmGuidedMetric (evaluator w model sys retries) fn s).1 = .ok (some (.error t m r))) ↔
      ∀ j ≤ retries, outcome (fn w model) s j = .error .invalid := by
  constructor
  · rintro ⟨t, m, r, h⟩
    rcases C41_cases (fn w model) s retries with h' | ⟨k, h1, h2, h3⟩
    · exact h'
    · rw [C41_first w model sys retries k fn s h1 h2 h3] at h
      simp only at h
      cases h4 : outcome (fn w model) s k with
      | error e => rw [h4] at h; simp [Except.map] at h
      | ok m' =>
        rw [h4] at h
        simp only [Except.map, Except.ok.injEq, Option.some.injEq] at h
        subst h
        exact (hfn (before (fn w model) s k) _ t m r (Prod.ext h4 rfl)).elim
  · intro h
    rw [C41_exhausted w model sys retries fn s h]
    exact ⟨_, _, _, rfl⟩

/-- Outside of the range of C41: with a negative number of retries no attempt is made, and the wrapper returns
`None`, which is not a metric. -/
theorem C41_negative_violation (w : World σ) (model sys : String) (retries : Int) (h : retries < 0)
    (fn : World σ → String → Run σ Metric) (s : σ) :
    llmGuidedMetric (evaluator w model sys retries) fn s = (.ok none, s) := by
  have : (1 + retries).toNat = 0 := by omega
  simp only [llmGuidedMetric, evaluator, this]
  rfl

/-- A client that first gives an invalid response and then a good one; two attempts are enough. -/
example : (llmGuidedMetric (evaluator (σ := Nat) ⟨fun s _ => (.ok [], s + 1), fun _ => .ok [], fun _ => none⟩ "m" "" 5)
    (fun _ model s => if s = 0 then (.error .invalid, 1) else (.ok (.value "Bias" 0 model 5), s + 1)) 0)
      = (.ok (some (.value "Bias" 0 "m" 5)), 2) := by decide +kernel

/-! ## C42: ranges -/

/-- A value that comes out of the wrapper comes out of an attempt. -/
theorem guided_value (ev : Evaluator σ) (fn : World σ → String → Run σ Metric) (s s' : σ) (t m : String) (x : Rat)
    (r : Int) (h : llmGuidedMetric ev fn s = (.ok (some (.value t x m r)), s')) :
    ∃ w model s0 s1, fn w model s0 = (.ok (.value t x m r), s1) := by
  unfold llmGuidedMetric at h
  cases hc : ev.client with
  | none => rw [hc] at h; exact absurd h (raise_ok _ _ _ _)
  | some c =>
    rw [hc] at h
    simp only at h
    cases hm : c.modelName with
    | none => rw [hm] at h; exact absurd h (raise_ok _ _ _ _)
    | some model =>
      rw [hm] at h
      simp only at h
      refine ⟨c.world, model, ?_⟩
      generalize (1 + ev.retries).toNat = n at h
      generalize false = failed at h
      induction n generalizing s failed with
      | zero => cases failed <;> simp [retryLoop, pure] at h
      | succ n ih =>
        simp only [retryLoop] at h
        rcases h2 : fn c.world model s with ⟨y, s1⟩
        rw [h2] at h
        cases y with
        | ok m' =>
          simp only [Prod.mk.injEq, Except.ok.injEq, Option.some.injEq] at h
          exact ⟨s, s1, by rw [h2, h.1]⟩
        | error e =>
          cases e with
          | invalid => exact ih s1 true h
          | _ => simp at h

/-- The number that one of the `compute_*` methods reports is the number that the calculation returned. -/
theorem value_of (x : Rat) (t t' m model : String) (r r' : Int) (act : Run σ Rat) (s s' : σ)
    (h : (do let y ← act
             return Metric.value t' y model r' : Run σ Metric) s = (.ok (.value t x m r), s')) :
    act s = (.ok x, s') ∧ t = t' ∧ m = model ∧ r = r' := by
  obtain ⟨y, s1, h1, h2⟩ := (bind_ok _ _ _ _ _).1 h
  rw [pure_ok] at h2
  simp only [Metric.value.injEq] at h2
  obtain ⟨⟨rfl, rfl, rfl, rfl⟩, rfl⟩ := h2
  exact ⟨h1, rfl, rfl, rfl⟩

theorem value_of_ctx (qr : QueryResponse) (x : Rat) (t t' m model : String) (r r' : Int) (act : Context → Run σ Rat)
    (s s' : σ)
    (h : (do let c ← needContext qr
             let y ← act c
             return Metric.value t' y model r' : Run σ Metric) s = (.ok (.value t x m r), s')) :
    ∃ c, qr.context = some c ∧ act c s = (.ok x, s') ∧ t = t' ∧ m = model ∧ r = r' := by
  obtain ⟨c, s1, h1, h2⟩ := (bind_ok _ _ _ _ _).1 h
  unfold needContext at h1
  cases hc : qr.context with
  | none => rw [hc] at h1; exact absurd h1 (raise_ok _ _ _ _)
  | some c' =>
    rw [hc] at h1
    simp only [pure_ok] at h1
    obtain ⟨rfl, rfl⟩ := h1
    exact ⟨c', rfl, value_of x t t' m model r r' (act c') _ _ h2⟩

theorem isMax_range (x : Rat) (xs : List Rat) (h : IsMax x xs) (hr : ∀ y ∈ xs, 0 ≤ y ∧ y ≤ 1) : 0 ≤ x ∧ x ≤ 1 :=
  hr x h.1

theorem chain_range (step : σ → String → Rat → σ → Prop) (hs : ∀ a g x b, step a g x b → 0 ≤ x ∧ x ≤ 1)
    (s s' : σ) (gs : List String) (xs : List Rat) (h : Chain step s gs xs s') : ∀ y ∈ xs, 0 ≤ y ∧ y ≤ 1 := by
  induction h with
  | nil => simp
  | cons h1 _ ih =>
    simp only [List.mem_cons, forall_eq_or_imp]
    exact ⟨hs _ _ _ _ h1, ih⟩

theorem correctness_range (w : World σ) (sys query : String) (preds : List String) (s : σ) (gt : String) (x : Rat)
    (s' : σ) (h : Correctness w sys query preds s gt x s') : 0 ≤ x ∧ x ≤ 1 := by
  obtain ⟨d1, s1, stmts, d2, tp, fp, fn, -, -, -, -, -, -, -, -, rfl⟩ := h
  refine ⟨by positivity, div_le_one_of_le₀ ?_ (by positivity)⟩
  have h1 : (0 : Rat) ≤ fp.length := by positivity
  have h2 : (0 : Rat) ≤ fn.length := by positivity
  linarith

/-- C42: every reported answer correctness lies in [0, 1]. -/
theorem C42_range_answer_correctness (ev : Evaluator σ) (qr : QueryResponse) (s s' : σ) (t m : String) (x : Rat) (r : Int)
    (h : computeAnswerCorrectness ev qr s = (.ok (some (.value t x m r)), s')) : 0 ≤ x ∧ x ≤ 1 := by
  obtain ⟨w, model, s0, s1, h1⟩ := guided_value _ _ _ _ _ _ _ _ h
  obtain ⟨c, -, h2, -⟩ := value_of_ctx _ _ _ _ _ _ _ _ _ _ _ h1
  obtain ⟨d, preds, s2, xs, -, -, h3, h4⟩ := (C42_answer_correctness ..).1 h2
  refine isMax_range x _ h4 ?_
  simp only [List.mem_cons, forall_eq_or_imp]
  exact ⟨by norm_num, chain_range _ (correctness_range w ev.systemPrompt qr.query preds) _ _ _ _ h3⟩

/-- C42: every reported answer relevance lies in [0, 1]. -/
theorem C42_range_answer_relevance (ev : Evaluator σ) (qr : QueryResponse) (s s' : σ) (t m : String) (x : Rat) (r : Int)
    (h : computeAnswerRelevance ev qr s = (.ok (some (.value t x m r)), s')) : 0 ≤ x ∧ x ≤ 1 := by
  obtain ⟨w, model, s0, s1, h1⟩ := guided_value _ _ _ _ _ _ _ _ h
  obtain ⟨h2, -⟩ := value_of _ _ _ _ _ _ _ _ _ _ h1
  obtain ⟨d, stmts, s2, -, -, h3⟩ := (C42_answer_relevance ..).1 h2
  exact share_range _ _ _ _ _ _ _ h3

/-- C42: every reported bias lies in [0, 1]. -/
theorem C42_range_bias (ev : Evaluator σ) (qr : QueryResponse) (s s' : σ) (t m : String) (x : Rat) (r : Int)
    (h : computeBias ev qr s = (.ok (some (.value t x m r)), s')) : 0 ≤ x ∧ x ≤ 1 := by
  obtain ⟨w, model, s0, s1, h1⟩ := guided_value _ _ _ _ _ _ _ _ h
  obtain ⟨h2, -⟩ := value_of _ _ _ _ _ _ _ _ _ _ h1
  obtain ⟨d, ops, s2, -, -, h3⟩ := (C42_bias ..).1 h2
  rcases h3 with ⟨-, rfl, -⟩ | ⟨-, h3⟩
  · norm_num
  · exact share_range _ _ _ _ _ _ _ h3

/-- C42: every reported context precision lies in [0, 1]. -/
theorem C42_range_context_precision (ev : Evaluator σ) (qr : QueryResponse) (s s' : σ) (t m : String) (x : Rat) (r : Int)
    (h : computeContextPrecision ev qr s = (.ok (some (.value t x m r)), s')) : 0 ≤ x ∧ x ≤ 1 := by
  obtain ⟨w, model, s0, s1, h1⟩ := guided_value _ _ _ _ _ _ _ _ h
  obtain ⟨c, -, h2, -⟩ := value_of_ctx _ _ _ _ _ _ _ _ _ _ _ h1
  rcases (C43_context_precision ..).1 h2 with ⟨-, -, rfl, -⟩ | ⟨-, -, rfl, -⟩ | ⟨-, -, rfl, -⟩ | ⟨-, -, rows, -, rfl⟩
  · norm_num
  · norm_num
  · norm_num
  · exact C43_range _

/-- C42: every reported context recall lies in [0, 1]. -/
theorem C42_range_context_recall (ev : Evaluator σ) (qr : QueryResponse) (s s' : σ) (t m : String) (x : Rat) (r : Int)
    (h : computeContextRecall ev qr s = (.ok (some (.value t x m r)), s')) : 0 ≤ x ∧ x ≤ 1 := by
  obtain ⟨w, model, s0, s1, h1⟩ := guided_value _ _ _ _ _ _ _ _ h
  obtain ⟨c, -, h2, -⟩ := value_of_ctx _ _ _ _ _ _ _ _ _ _ _ h1
  rcases (C42_context_recall ..).1 h2 with ⟨-, -, rfl, -⟩ | ⟨-, -, rfl, -⟩ | ⟨-, -, rfl, -⟩ | ⟨-, -, xs, h3, h4⟩
  · norm_num
  · norm_num
  · norm_num
  · refine isMax_range x _ h4 (chain_range _ ?_ _ _ _ _ h3)
    rintro a g y b ⟨d, s2, stmts, -, -, -, h5⟩
    exact share_range _ _ _ _ _ _ _ h5

/-- C42: every reported context relevance lies in [0, 1]. -/
theorem C42_range_context_relevance (ev : Evaluator σ) (qr : QueryResponse) (s s' : σ) (t m : String) (x : Rat) (r : Int)
    (h : computeContextRelevance ev qr s = (.ok (some (.value t x m r)), s')) : 0 ≤ x ∧ x ≤ 1 := by
  obtain ⟨w, model, s0, s1, h1⟩ := guided_value _ _ _ _ _ _ _ _ h
  obtain ⟨c, -, h2, -⟩ := value_of_ctx _ _ _ _ _ _ _ _ _ _ _ h1
  rcases (C42_context_relevance ..).1 h2 with ⟨-, rfl, -⟩ | ⟨-, h3⟩
  · norm_num
  · exact share_range _ _ _ _ _ _ _ h3

/-- C42: every reported faithfulness lies in [0, 1]. -/
theorem C42_range_faithfulness (ev : Evaluator σ) (qr : QueryResponse) (s s' : σ) (t m : String) (x : Rat) (r : Int)
    (h : computeFaithfulness ev qr s = (.ok (some (.value t x m r)), s')) : 0 ≤ x ∧ x ≤ 1 := by
  obtain ⟨w, model, s0, s1, h1⟩ := guided_value _ _ _ _ _ _ _ _ h
  obtain ⟨c, -, h2, -⟩ := value_of_ctx _ _ _ _ _ _ _ _ _ _ _ h1
  rcases (C42_faithfulness ..).1 h2 with ⟨-, rfl, -⟩ | ⟨-, d, claims, s2, -, -, h3⟩
  · norm_num
  · rcases h3 with ⟨-, rfl, -⟩ | ⟨-, h3⟩
    · norm_num
    · exact share_range _ _ _ _ _ _ _ h3

/-- C42: every reported hallucination score lies in [0, 1]. -/
theorem C42_range_hallucination (ev : Evaluator σ) (qr : QueryResponse) (s s' : σ) (t m : String) (x : Rat) (r : Int)
    (h : computeHallucination ev qr s = (.ok (some (.value t x m r)), s')) : 0 ≤ x ∧ x ≤ 1 := by
  obtain ⟨w, model, s0, s1, h1⟩ := guided_value _ _ _ _ _ _ _ _ h
  obtain ⟨c, -, h2, -⟩ := value_of_ctx _ _ _ _ _ _ _ _ _ _ _ h1
  exact share_range _ _ _ _ _ _ _ ((C42_hallucination ..).1 h2).2

/-- C42: every reported toxicity lies in [0, 1]. -/
theorem C42_range_toxicity (ev : Evaluator σ) (qr : QueryResponse) (s s' : σ) (t m : String) (x : Rat) (r : Int)
    (h : computeToxicity ev qr s = (.ok (some (.value t x m r)), s')) : 0 ≤ x ∧ x ≤ 1 := by
  obtain ⟨w, model, s0, s1, h1⟩ := guided_value _ _ _ _ _ _ _ _ h
  obtain ⟨h2, -⟩ := value_of _ _ _ _ _ _ _ _ _ _ h1
  obtain ⟨d, ops, s2, -, -, h3⟩ := (C42_toxicity ..).1 h2
  rcases h3 with ⟨-, rfl, -⟩ | ⟨-, h3⟩
  · norm_num
  · exact share_range _ _ _ _ _ _ _ h3

/-- C42: every reported summary coherence is one of 1, 2, 3, 4, 5. -/
theorem C42_range_summary_coherence (ev : Evaluator σ) (qr : QueryResponse) (s s' : σ) (t m : String) (x : Rat) (r : Int)
    (h : computeSummaryCoherence ev qr s = (.ok (some (.value t x m r)), s')) :
    x = 1 ∨ x = 2 ∨ x = 3 ∨ x = 4 ∨ x = 5 := by
  obtain ⟨w, model, s0, s1, h1⟩ := guided_value _ _ _ _ _ _ _ _ h
  obtain ⟨y, s2, h2, h3⟩ := (bind_ok _ _ _ _ _).1 h1
  rw [pure_ok] at h3
  simp only [Metric.value.injEq] at h3
  obtain ⟨⟨-, rfl, -⟩, -⟩ := h3
  obtain ⟨reply, -, -, h4, h5⟩ := (C42_summary_coherence ..).1 h2
  have : y = 1 ∨ y = 2 ∨ y = 3 ∨ y = 4 ∨ y = 5 := by omega
  rcases this with rfl | rfl | rfl | rfl | rfl <;> simp

/-! ## C48: token counts -/

/-- The usage that a reply of the API reports. -/
def usageOf (a : Except PyErr ApiReply) : Nat × Nat :=
  match a with
  | .ok r => r.usage.getD (0, 0)
  | .error _ => (0, 0)

/-- C48: after any history of calls the counters have grown by the sums of the reported usages, whether or not the
replies were accepted. -/
theorem C48_tokens (t : Tokens) (calls : List (Except PyErr ApiReply)) :
    openAiCalls t calls =
      ⟨t.prompt + (calls.map (fun a => (usageOf a).1)).sum, t.completion + (calls.map (fun a => (usageOf a).2)).sum⟩ := by
  induction calls generalizing t with
  | nil => rfl
  | cons a as ih =>
    have h : (openAiCall t a).2 = ⟨t.prompt + (usageOf a).1, t.completion + (usageOf a).2⟩ := by
      cases a with
      | error e => rfl
      | ok r =>
        simp only [openAiCall, usageOf]
        cases r.usage with
        | none => split <;> [rfl; split <;> rfl]
        | some pc => split <;> [rfl; split <;> rfl]
    rw [openAiCalls, ih, h]
    simp only [List.map_cons, List.sum_cons, Tokens.mk.injEq]
    omega

/-- C48: the counters never decrease. -/
theorem C48_monotone (t : Tokens) (a b : List (Except PyErr ApiReply)) :
    (openAiCalls t a).prompt ≤ (openAiCalls t (a ++ b)).prompt ∧
    (openAiCalls t a).completion ≤ (openAiCalls t (a ++ b)).completion := by
  rw [C48_tokens, C48_tokens]
  simp only [List.map_append, List.sum_append]
  omega

/-- C48: a reply is handed on exactly if it was neither cut off nor filtered. -/
theorem C48_reply (t : Tokens) (r : ApiReply) :
    (openAiCall t (.ok r)).1 =
      if r.finish = "length" ∨ r.finish = "content_filter" then .error .valueError else .ok (r.content.getD "") := by
  simp only [openAiCall]
  by_cases h1 : r.finish = "length"
  · simp [h1]
  · by_cases h2 : r.finish = "content_filter"
    · simp [h2]
    · simp [h1, h2]

example : openAiCalls ⟨0, 0⟩ [.ok ⟨some "a", some (3, 4), "stop"⟩, .error .valueError, .ok ⟨none, some (5, 6), "length"⟩]
    = ⟨8, 10⟩ := by decide

end Verif.TextGen
