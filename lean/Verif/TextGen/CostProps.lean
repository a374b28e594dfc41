import Verif.TextGen.GuidedProps
import Verif.TextGen.Bleu

/-!
# C98: the number of LLM requests of a metric is known in advance, and a metric names the evaluator that computed it
-/

namespace Verif.TextGen

variable {σ : Type} {α β : Type}

/-! ## Building an evaluator -/

/-- `Evaluator.openai` (`manager.py` 104-146) with `OpenAIWrapper.__init__` (`integrations.py` 62-93). The client library is the world `w`, which may
depend on the seed; the API key only selects the account. -/
def Evaluator.openai (w : Option Int → World σ) (model : String) (retries : Int) (seed : Option Int) (sys : String) : Except PyErr (Evaluator σ) :=
  if seed.isSome ∧ retries ≠ 0 then .error .valueError
  else .ok ⟨some ⟨some model, w seed⟩, retries, sys⟩

/-- `Evaluator.mistral` (`manager.py` 148-181) with `MistralWrapper.__init__` (`integrations.py` 156-179). -/
def Evaluator.mistral (w : World σ) (model : String) (retries : Int) (sys : String) : Evaluator σ := ⟨some ⟨some model, w⟩, retries, sys⟩

/-! ## Counting requests -/

/-- `c` is a counter of requests: each request raises it by one. -/
def Counts (w : World σ) (c : σ → Nat) : Prop := ∀ s m, c (w.call s m).2 = c s + 1

/-- At most `k` requests, whatever happens. -/
def AtMost (c : σ → Nat) (k : Nat) (f : Run σ α) : Prop := ∀ s, c (f s).2 ≤ c s + k

/-- Exactly `k` requests if no exception is raised. -/
def Exactly (c : σ → Nat) (k : Nat) (f : Run σ α) : Prop := ∀ s a s', f s = (.ok a, s') → c s' = c s + k

theorem atMost_pure (c : σ → Nat) (a : α) : AtMost c 0 (pure a : Run σ α) := fun _ => Nat.le_refl _
theorem atMost_lift (c : σ → Nat) (x : Except PyErr α) : AtMost c 0 (Run.lift x : Run σ α) := fun _ => Nat.le_refl _
theorem atMost_raise (c : σ → Nat) (e : PyErr) : AtMost c 0 (Run.raise e : Run σ α) := fun _ => Nat.le_refl _

theorem AtMost.mono {c : σ → Nat} {k l : Nat} {f : Run σ α} (h : AtMost c k f) (hk : k ≤ l) : AtMost c l f := fun s => by
  have := h s
  omega

theorem AtMost.bind {c : σ → Nat} {k l : Nat} {f : Run σ α} {g : α → Run σ β} (hf : AtMost c k f) (hg : ∀ a, AtMost c l (g a)) :
    AtMost c (k + l) (f >>= g) := by
  intro s
  have h1 := hf s
  show c (match f s with | (.ok a, s') => g a s' | (.error e, s') => (.error e, s')).2 ≤ _
  rcases h : f s with ⟨x, s'⟩
  rw [h] at h1
  cases x with
  | error e =>
    dsimp only at h1 ⊢
    omega
  | ok a =>
    have h2 := hg a s'
    dsimp only at h1 ⊢
    omega

theorem exactly_pure (c : σ → Nat) (a : α) : Exactly c 0 (pure a : Run σ α) := by
  intro s b s' h
  cases h
  rfl

theorem exactly_lift (c : σ → Nat) (x : Except PyErr α) : Exactly c 0 (Run.lift x : Run σ α) := by
  intro s b s' h
  cases h
  rfl

theorem exactly_raise (c : σ → Nat) (k : Nat) (e : PyErr) : Exactly c k (Run.raise e : Run σ α) := by
  intro s b s' h
  cases h

theorem Exactly.bind {c : σ → Nat} {k l : Nat} {f : Run σ α} {g : α → Run σ β} (hf : Exactly c k f) (hg : ∀ a, Exactly c l (g a)) :
    Exactly c (k + l) (f >>= g) := by
  intro s b s' h
  change (match f s with | (.ok a, s') => g a s' | (.error e, s') => (.error e, s')) = _ at h
  rcases hx : f s with ⟨x, s1⟩
  rw [hx] at h
  cases x with
  | error e => cases h
  | ok a =>
    have h1 := hf s a s1 hx
    have h2 := hg a s1 b s' h
    omega

variable {w : World σ} {c : σ → Nat}

theorem ask_atMost (hc : Counts w c) (m : Message) : AtMost c 1 (w.ask m) := fun s => (hc s m).le

theorem ask_exactly (hc : Counts w c) (m : Message) : Exactly c 1 (w.ask m) := by
  intro s a s' h
  have := hc s m
  change w.call s m = _ at h
  rw [h] at this
  exact this

theorem generate_cost (hc : Counts w c) (msg : Message) (keys : List String) (v : Dict → String → Option (List String) → Option Nat → Except PyErr Unit)
    (allowed : Option (List String)) (len : Option Nat) : AtMost c 1 (generate w msg keys v allowed len) ∧ Exactly c 1 (generate w msg keys v allowed len) :=
  ⟨(ask_atMost hc msg).bind (l := 0) (fun _ => (atMost_lift c _).bind (l := 0) (fun _ => (atMost_lift c _).bind (l := 0) (fun _ => atMost_pure c _))),
    (ask_exactly hc msg).bind (l := 0) (fun _ => (exactly_lift c _).bind (l := 0) (fun _ => (exactly_lift c _).bind (l := 0) (fun _ => exactly_pure c _)))⟩

theorem statements_cost (hc : Counts w c) (sys text : String) : AtMost c 1 (generateStatements w sys text) ∧ Exactly c 1 (generateStatements w sys text) :=
  ⟨(generate_cost hc _ _ _ _ _).1.bind (l := 0) (fun _ => atMost_lift c _), (generate_cost hc _ _ _ _ _).2.bind (l := 0) (fun _ => exactly_lift c _)⟩

theorem opinions_cost (hc : Counts w c) (sys text : String) : AtMost c 1 (generateOpinions w sys text) ∧ Exactly c 1 (generateOpinions w sys text) :=
  ⟨(generate_cost hc _ _ _ _ _).1.bind (l := 0) (fun _ => atMost_lift c _), (generate_cost hc _ _ _ _ _).2.bind (l := 0) (fun _ => exactly_lift c _)⟩

theorem claims_cost (hc : Counts w c) (sys text : String) : AtMost c 1 (generateClaims w sys text) ∧ Exactly c 1 (generateClaims w sys text) :=
  ⟨(generate_cost hc _ _ _ _ _).1.bind (l := 0) (fun _ => atMost_lift c _), (generate_cost hc _ _ _ _ _).2.bind (l := 0) (fun _ => exactly_lift c _)⟩

theorem verdicts_cost (hc : Counts w c) (msg : Message) (allowed : List String) (n : Nat) :
    AtMost c 1 (generateVerdicts w msg allowed n) ∧ Exactly c 1 (generateVerdicts w msg allowed n) :=
  ⟨(generate_cost hc _ _ _ _ _).1.bind (l := 0) (fun _ => atMost_lift c _), (generate_cost hc _ _ _ _ _).2.bind (l := 0) (fun _ => exactly_lift c _)⟩

theorem correctness_cost (hc : Counts w c) (sys query : String) (preds gts : List String) :
    AtMost c 1 (generateAnswerCorrectnessVerdicts w sys query preds gts) ∧ Exactly c 1 (generateAnswerCorrectnessVerdicts w sys query preds gts) := by
  constructor
  · refine (generate_cost hc _ _ _ _ _).1.bind (l := 0) (fun _ => (atMost_lift c _).bind (l := 0) (fun tp => (atMost_lift c _).bind (l := 0) (fun fp => ?_)))
    split
    · exact atMost_raise c _
    · refine (atMost_lift c _).bind (l := 0) (fun fn => ?_)
      split
      · exact atMost_raise c _
      · exact atMost_pure c _
  · refine (generate_cost hc _ _ _ _ _).2.bind (l := 0) (fun _ => (exactly_lift c _).bind (l := 0) (fun tp => (exactly_lift c _).bind (l := 0) (fun fp => ?_)))
    split
    · exact exactly_raise c _ _
    · refine (exactly_lift c _).bind (l := 0) (fun fn => ?_)
      split
      · exact exactly_raise c _ _
      · exact exactly_pure c _

theorem coherence_cost (hc : Counts w c) (sys text summary : String) :
    AtMost c 1 (generateSummaryCoherence w sys text summary) ∧ Exactly c 1 (generateSummaryCoherence w sys text summary) := by
  constructor
  · refine (ask_atMost hc _).bind (l := 0) (fun _ => (atMost_lift c _).bind (l := 0) (fun r => ?_))
    cases r with
    | none => exact atMost_raise c _
    | some n =>
      dsimp only
      split
      · exact atMost_raise c _
      · exact atMost_pure c _
  · refine (ask_exactly hc _).bind (l := 0) (fun _ => (exactly_lift c _).bind (l := 0) (fun r => ?_))
    cases r with
    | none => exact exactly_raise c _ _
    | some n =>
      dsimp only
      split
      · exact exactly_raise c _ _
      · exact exactly_pure c _

theorem correctness_loop_cost (hc : Counts w c) (sys query : String) (preds : List String) (gts : List String) :
    AtMost c (2 * gts.length) (answerCorrectnessLoop w sys query preds gts) ∧ Exactly c (2 * gts.length) (answerCorrectnessLoop w sys query preds gts) := by
  induction gts with
  | nil => exact ⟨atMost_pure c _, exactly_pure c _⟩
  | cons g gs ih =>
    have e : 2 * (g :: gs).length = 1 + (1 + (2 * gs.length + 0)) := by
      rw [List.length_cons]
      omega
    rw [e]
    exact ⟨(statements_cost hc _ _).1.bind (fun _ => (correctness_cost hc _ _ _ _).1.bind (fun _ => ih.1.bind (fun _ => atMost_pure c _))),
      (statements_cost hc _ _).2.bind (fun _ => (correctness_cost hc _ _ _ _).2.bind (fun _ => ih.2.bind (fun _ => exactly_pure c _)))⟩

theorem precision_loop_cost (hc : Counts w c) (sys query : String) (contexts : List String) (gts : List String) (agg : List Bool) :
    AtMost c gts.length (contextPrecisionLoop w sys query contexts gts agg) ∧ Exactly c gts.length (contextPrecisionLoop w sys query contexts gts agg) := by
  induction gts generalizing agg with
  | nil => exact ⟨atMost_pure c _, exactly_pure c _⟩
  | cons g gs ih =>
    have e : (g :: gs).length = 1 + (0 + (0 + gs.length)) := by
      rw [List.length_cons]
      omega
    rw [e]
    exact ⟨(verdicts_cost hc _ _ _).1.bind (fun _ => (atMost_lift c _).bind (fun _ => (atMost_lift c _).bind (fun a => (ih a).1))),
      (verdicts_cost hc _ _ _).2.bind (fun _ => (exactly_lift c _).bind (fun _ => (exactly_lift c _).bind (fun a => (ih a).2)))⟩

theorem recall_loop_cost (hc : Counts w c) (sys : String) (predicted : List String) (gts : List String) :
    AtMost c (2 * gts.length) (contextRecallLoop w sys predicted gts) ∧ Exactly c (2 * gts.length) (contextRecallLoop w sys predicted gts) := by
  induction gts with
  | nil => exact ⟨atMost_pure c _, exactly_pure c _⟩
  | cons g gs ih =>
    have e : 2 * (g :: gs).length = 1 + (1 + (0 + (2 * gs.length + 0))) := by
      rw [List.length_cons]
      omega
    rw [e]
    exact ⟨(statements_cost hc _ _).1.bind (fun _ => (verdicts_cost hc _ _ _).1.bind (fun _ => (atMost_lift c _).bind (fun _ => ih.1.bind (fun _ => atMost_pure c _)))),
      (statements_cost hc _ _).2.bind (fun _ => (verdicts_cost hc _ _ _).2.bind (fun _ => (exactly_lift c _).bind (fun _ => ih.2.bind (fun _ => exactly_pure c _))))⟩

/-! ## One attempt -/

/-- **C98 (one attempt that succeeds).** The number of requests behind a score is fixed by the number of ground truths alone: it is 1 for context
relevance, hallucination and summary coherence, 2 for answer relevance, `1 + 2 g` for answer correctness, `g` for context precision and `2 g` for context
recall (if there is something to compare). -/
theorem C98_exact (hc : Counts w c) (sys query response : String) (predicted groundtruth : List String) :
    Exactly c (1 + 2 * groundtruth.length) (calculateAnswerCorrectness w sys query response groundtruth) ∧
    Exactly c 2 (calculateAnswerRelevance w sys query response) ∧
    Exactly c 1 (calculateSummaryCoherence w sys query response) ∧
    Exactly c 1 (calculateHallucination w sys response predicted) ∧
    (predicted ≠ [] → Exactly c 1 (calculateContextRelevance w sys query predicted) ∧
      Exactly c groundtruth.length (calculateContextPrecision w sys query predicted groundtruth) ∧
      Exactly c (2 * groundtruth.length) (calculateContextRecall w sys predicted groundtruth)) := by
  refine ⟨?_, ?_, (coherence_cost hc _ _ _).2, ?_, fun hp => ⟨?_, ?_, ?_⟩⟩
  · exact (statements_cost hc _ _).2.bind (fun _ => (correctness_loop_cost hc _ _ _ _).2.bind (l := 0) (fun _ => exactly_lift c _))
  · refine (statements_cost hc _ _).2.bind (fun _ => (verdicts_cost hc _ _ _).2.bind (l := 0) (fun v => ?_))
    split
    · exact exactly_pure c _
    · exact exactly_lift c _
  · unfold calculateHallucination
    split
    · exact exactly_raise c _ _
    · exact (verdicts_cost hc _ _ _).2.bind (l := 0) (fun _ => exactly_lift c _)
  · unfold calculateContextRelevance
    rw [if_neg (by simpa using hp)]
    exact (verdicts_cost hc _ _ _).2.bind (l := 0) (fun _ => exactly_lift c _)
  · have hn : predicted.length ≠ 0 := by simpa using hp
    unfold calculateContextPrecision
    rw [if_neg (by simp [hn])]
    split
    · rename_i h
      have : groundtruth.length = 0 := by omega
      rw [this]
      exact exactly_pure c _
    · exact (precision_loop_cost hc _ _ _ _ _).2.bind (l := 0) (fun _ => exactly_pure c _)
  · have hn : predicted.length ≠ 0 := by simpa using hp
    unfold calculateContextRecall
    rw [if_neg (by simp [hn])]
    split
    · rename_i h
      have : groundtruth.length = 0 := by omega
      rw [this]
      exact exactly_pure c _
    · exact (recall_loop_cost hc _ _ _).2.bind (l := 0) (fun _ => exactly_lift c _)

/-- At most as many requests in any attempt. -/
theorem attempt_cost (hc : Counts w c) (sys query response : String) (predicted groundtruth : List String) :
    AtMost c (1 + 2 * groundtruth.length) (calculateAnswerCorrectness w sys query response groundtruth) ∧
    AtMost c 2 (calculateAnswerRelevance w sys query response) ∧ AtMost c 2 (calculateBias w sys response) ∧
    AtMost c groundtruth.length (calculateContextPrecision w sys query predicted groundtruth) ∧
    AtMost c (2 * groundtruth.length) (calculateContextRecall w sys predicted groundtruth) ∧
    AtMost c 1 (calculateContextRelevance w sys query predicted) ∧ AtMost c 2 (calculateFaithfulness w sys response predicted) ∧
    AtMost c 1 (calculateHallucination w sys response predicted) ∧ AtMost c 1 (calculateSummaryCoherence w sys query response) ∧
    AtMost c 2 (calculateToxicity w sys response) := by
  have zero : ∀ {α : Type} (k : Nat) (a : α), AtMost c k (pure a : Run σ α) := fun k a => (atMost_pure c a).mono (Nat.zero_le k)
  refine ⟨?_, ?_, ?_, ?_, ?_, ?_, ?_, ?_, (coherence_cost hc _ _ _).1, ?_⟩
  · exact (statements_cost hc _ _).1.bind (fun _ => (correctness_loop_cost hc _ _ _ _).1.bind (l := 0) (fun _ => atMost_lift c _))
  · refine (statements_cost hc _ _).1.bind (fun _ => (verdicts_cost hc _ _ _).1.bind (l := 0) (fun v => ?_))
    split
    · exact zero _ _
    · exact atMost_lift c _
  · refine (opinions_cost hc _ _).1.bind (l := 1) (fun o => ?_)
    split
    · exact zero _ _
    · exact (verdicts_cost hc _ _ _).1.bind (l := 0) (fun _ => atMost_lift c _)
  · unfold calculateContextPrecision
    split
    · exact zero _ _
    · split
      · exact zero _ _
      · exact (precision_loop_cost hc _ _ _ _ _).1.bind (l := 0) (fun _ => atMost_pure c _)
  · unfold calculateContextRecall
    split
    · exact zero _ _
    · split
      · exact zero _ _
      · exact (recall_loop_cost hc _ _ _).1.bind (l := 0) (fun _ => atMost_lift c _)
  · unfold calculateContextRelevance
    split
    · exact zero _ _
    · exact (verdicts_cost hc _ _ _).1.bind (l := 0) (fun _ => atMost_lift c _)
  · unfold calculateFaithfulness
    split
    · exact zero _ _
    · refine (claims_cost hc _ _).1.bind (l := 1) (fun o => ?_)
      split
      · exact zero _ _
      · exact (verdicts_cost hc _ _ _).1.bind (l := 0) (fun _ => atMost_lift c _)
  · unfold calculateHallucination
    split
    · exact (atMost_raise c _).mono (Nat.zero_le _)
    · exact (verdicts_cost hc _ _ _).1.bind (l := 0) (fun _ => atMost_lift c _)
  · refine (opinions_cost hc _ _).1.bind (l := 1) (fun o => ?_)
    split
    · exact zero _ _
    · exact (verdicts_cost hc _ _ _).1.bind (l := 0) (fun _ => atMost_lift c _)

/-! ## With retries -/

theorem retry_cost {fn : Run σ Metric} {k : Nat} (h : AtMost c k fn) (model : String) (r : Int) (n : Nat) (failed : Bool) :
    AtMost c (n * k) (retryLoop fn model r n failed) := by
  induction n generalizing failed with
  | zero => exact (atMost_pure c _).mono (Nat.zero_le _)
  | succ n ih =>
    intro s
    have h1 := h s
    have e : (n + 1) * k = n * k + k := Nat.succ_mul n k
    simp only [retryLoop]
    rcases hx : fn s with ⟨x, s'⟩
    rw [hx] at h1
    cases x with
    | ok m =>
      dsimp only at h1 ⊢
      omega
    | error e' =>
      have h2 := ih true s'
      cases e' <;> dsimp only at h1 ⊢ <;> omega

/-- The attempts that the evaluator makes. -/
def Evaluator.attempts (ev : Evaluator σ) : Nat := (1 + ev.retries).toNat

/-- `c` counts the requests to the evaluator's client. -/
def CountsFor (ev : Evaluator σ) (c : σ → Nat) : Prop := ∀ cl, ev.client = some cl → Counts cl.world c

theorem guided_cost {ev : Evaluator σ} (hc : CountsFor ev c) {fn : World σ → String → Run σ Metric} {k : Nat}
    (h : ∀ w model, Counts w c → AtMost c k (fn w model)) : AtMost c (ev.attempts * k) (llmGuidedMetric ev fn) := by
  unfold llmGuidedMetric
  rcases hcl : ev.client with _ | cl
  · exact (atMost_raise c _).mono (Nat.zero_le _)
  · dsimp only
    rcases cl.modelName with _ | model
    · exact (atMost_raise c _).mono (Nat.zero_le _)
    · exact retry_cost (h _ _ (hc cl hcl)) _ _ _ _

theorem guided_cost_ctx {ev : Evaluator σ} (hc : CountsFor ev c) (qr : QueryResponse) {act : World σ → Context → Run σ Rat} {type : String} {k : Nat}
    (h : ∀ w ctx, qr.context = some ctx → Counts w c → AtMost c k (act w ctx)) :
    AtMost c (ev.attempts * k) (llmGuidedMetric ev (fun w model => do
      let ctx ← needContext qr
      let x ← act w ctx
      return .value type x model ev.retries)) := by
  apply guided_cost hc
  intro w model hw
  rcases hq : qr.context with _ | ctx
  · intro s
    have : (needContext qr : Run σ Context) = Run.raise .valueError := by
      unfold needContext
      rw [hq]
    rw [this]
    exact Nat.le_add_right _ _
  · have : (needContext qr : Run σ Context) = pure ctx := by
      unfold needContext
      rw [hq]
    rw [this]
    exact (h w ctx hq hw).bind (l := 0) (fun _ => atMost_pure c _)

/-- The number of ground truths of a response. -/
def QueryResponse.groundtruths (qr : QueryResponse) : Nat := (qr.context.map (fun ctx => ctx.groundtruth.length)).getD 0

/-- **C98 (requests).** Whatever the LLM replies, a metric makes at most `1 + retries` times the requests of one attempt; these are fixed by the number
of ground truths. -/
theorem C98_requests {ev : Evaluator σ} (hc : CountsFor ev c) (qr : QueryResponse) :
    AtMost c (ev.attempts * (1 + 2 * qr.groundtruths)) (computeAnswerCorrectness ev qr) ∧
    AtMost c (ev.attempts * 2) (computeAnswerRelevance ev qr) ∧ AtMost c (ev.attempts * 2) (computeBias ev qr) ∧
    AtMost c (ev.attempts * qr.groundtruths) (computeContextPrecision ev qr) ∧
    AtMost c (ev.attempts * (2 * qr.groundtruths)) (computeContextRecall ev qr) ∧
    AtMost c (ev.attempts * 1) (computeContextRelevance ev qr) ∧ AtMost c (ev.attempts * 2) (computeFaithfulness ev qr) ∧
    AtMost c (ev.attempts * 1) (computeHallucination ev qr) ∧ AtMost c (ev.attempts * 1) (computeSummaryCoherence ev qr) ∧
    AtMost c (ev.attempts * 2) (computeToxicity ev qr) := by
  have hg : ∀ ctx, qr.context = some ctx → qr.groundtruths = ctx.groundtruth.length := by
    intro ctx h
    unfold QueryResponse.groundtruths
    rw [h]
    rfl
  refine ⟨?_, ?_, ?_, ?_, ?_, ?_, ?_, ?_, ?_, ?_⟩
  · exact guided_cost_ctx hc qr (fun w ctx h hw => by rw [hg ctx h]; exact (attempt_cost hw _ _ _ [] _).1)
  · exact guided_cost hc (fun w _ hw => (attempt_cost hw _ _ _ [] []).2.1.bind (l := 0) (fun _ => atMost_pure c _))
  · exact guided_cost hc (fun w _ hw => (attempt_cost hw _ "" _ [] []).2.2.1.bind (l := 0) (fun _ => atMost_pure c _))
  · exact guided_cost_ctx hc qr (fun w ctx h hw => by rw [hg ctx h]; exact (attempt_cost hw _ _ "" _ _).2.2.2.1)
  · exact guided_cost_ctx hc qr (fun w ctx h hw => by rw [hg ctx h]; exact (attempt_cost hw _ "" "" _ _).2.2.2.2.1)
  · exact guided_cost_ctx hc qr (fun w ctx _ hw => (attempt_cost hw _ _ "" _ []).2.2.2.2.2.1)
  · exact guided_cost_ctx hc qr (fun w ctx _ hw => (attempt_cost hw _ "" _ _ []).2.2.2.2.2.2.1)
  · exact guided_cost_ctx hc qr (fun w ctx _ hw => (attempt_cost hw _ "" _ _ []).2.2.2.2.2.2.2.1)
  · exact guided_cost hc (fun w _ hw => (attempt_cost hw _ _ _ [] []).2.2.2.2.2.2.2.2.1.bind (l := 0) (fun _ => atMost_pure c _))
  · exact guided_cost hc (fun w _ hw => (attempt_cost hw _ "" _ [] []).2.2.2.2.2.2.2.2.2.bind (l := 0) (fun _ => atMost_pure c _))

/-- **C98 (all metrics).** `compute_all` makes at most `(1 + retries) (12 + 5 g)` requests for `g` ground truths. -/
theorem C98_all {ev : Evaluator σ} (hc : CountsFor ev c) (cc : CharClasses) (bleu : BleuLib) (rouge : RougeLib) (qr : QueryResponse) (weights : List Rat)
    (types : List String) (stem : Bool) :
    AtMost c (ev.attempts * (12 + 5 * qr.groundtruths)) (computeAll ev cc bleu rouge qr weights types stem) := by
  obtain ⟨h1, h2, h3, h4, h5, h6, h7, h8, h9, h10⟩ := C98_requests hc qr
  have step : ∀ {name : String} {m : Run σ (Option Metric)} {ms} {k l : Nat}, AtMost c k m → AtMost c l (runAll ms) → AtMost c (k + l) (runAll ((name, m) :: ms)) :=
    fun hm hms => hm.bind (fun _ => hms.bind (l := 0) (fun _ => atMost_pure c _))
  have h := step (name := "AnswerCorrectness") h1 (step (name := "AnswerRelevance") h2 (step (name := "Bias") h3 (step (name := "ContextPrecision") h4
    (step (name := "ContextRecall") h5 (step (name := "ContextRelevance") h6 (step (name := "Faithfulness") h7 (step (name := "Hallucination") h8
    (step (name := "SummaryCoherence") h9 (step (name := "Toxicity") h10 (ms := []) (l := 0) (atMost_pure c []))))))))))
  have h' : AtMost c _ (computeAll ev cc bleu rouge qr weights types stem) :=
    AtMost.bind (l := 0) h (fun g => (atMost_lift c _).bind (l := 0) (fun r => (atMost_lift c _).bind (l := 0) (fun b => atMost_pure c _)))
  refine h'.mono (Nat.le_of_eq ?_)
  ring

/-! ## A seeded evaluator asks once -/

/-- **C98 (seed).** A seed and retries exclude each other: `Evaluator.openai` refuses them together. Every evaluator built with a seed makes one attempt
for each metric, so that `compute_all` makes at most `12 + 5 g` requests. -/
theorem C98_seeded (v : Option Int → World σ) (model sys : String) (retries seed : Int) :
    (retries ≠ 0 → Evaluator.openai v model retries (some seed) sys = .error .valueError) ∧
    ∀ ev, Evaluator.openai v model retries (some seed) sys = .ok ev → Counts (v (some seed)) c →
      ∀ cc bleu rouge qr weights types stem,
        AtMost c (12 + 5 * qr.groundtruths) (computeAll ev cc bleu rouge qr weights types stem) := by
  constructor
  · intro h
    exact if_pos ⟨rfl, h⟩
  · intro ev h hc cc bleu rouge qr weights types stem
    unfold Evaluator.openai at h
    split at h
    · cases h
    · rename_i hn
      cases h
      have h0 : retries = 0 := by
        by_contra hr
        exact hn ⟨rfl, hr⟩
      subst h0
      have := C98_all (c := c) (ev := ⟨some ⟨some model, v (some seed)⟩, 0, sys⟩) (fun cl hcl => by cases hcl; exact hc) cc bleu rouge qr weights types stem
      refine this.mono (Nat.le_of_eq ?_)
      exact Nat.one_mul _

/-- **C98 (no seed).** Without a seed both constructors accept any number of retries, and `compute_all` makes at most `(1 + retries) (12 + 5 g)`
requests. -/
theorem C98_unseeded (v : Option Int → World σ) (model sys : String) (n : Nat) (hc : Counts (v none) c) (cc : CharClasses) (bleu : BleuLib) (rouge : RougeLib)
    (qr : QueryResponse) (weights : List Rat) (types : List String) (stem : Bool) :
    Evaluator.openai v model n none sys = .ok (Evaluator.mistral (v none) model n sys) ∧
    AtMost c ((1 + n) * (12 + 5 * qr.groundtruths)) (computeAll (Evaluator.mistral (v none) model n sys) cc bleu rouge qr weights types stem) := by
  refine ⟨if_neg (fun h => by cases h.1), ?_⟩
  have := C98_all (c := c) (ev := Evaluator.mistral (v none) model n sys) (fun cl hcl => by cases hcl; exact hc) cc bleu rouge qr weights types stem
  have e : (Evaluator.mistral (v none) model n sys).attempts = 1 + n := by
    show (1 + (n : Int)).toNat = 1 + n
    omega
  rwa [e] at this

/-! ## A metric names its evaluator -/

/-- `metric.parameters["evaluator"]` (`metric.py` 69-72 and the same lines of the ten constructors). -/
def Metric.evaluator : Metric → String
  | .value _ _ m _ => m
  | .error _ m _ => m

/-- `metric.parameters["retries"]` -/
def Metric.retries : Metric → Int
  | .value _ _ _ r => r
  | .error _ _ r => r

/-- `metric.type` (`metric.py` 63-64 for errors) -/
def Metric.type : Metric → String
  | .value t _ _ _ => t
  | .error _ _ _ => "Error"

/-- Whatever metric `f` returns has this type or is an error, and carries these parameters. -/
def Names (type model : String) (r : Int) (f : Run σ (Option Metric)) : Prop :=
  ∀ s m, (f s).1 = .ok (some m) → (m.type = type ∨ m.type = "Error") ∧ m.evaluator = model ∧ m.retries = r

theorem guided_names {ev : Evaluator σ} {model : String} {w : World σ} (hcl : ev.client = some ⟨some model, w⟩) {fn : World σ → String → Run σ Metric} {type : String}
    (h : ∀ w model s m s', fn w model s = (.ok m, s') → ∃ x, m = .value type x model ev.retries) : Names type model ev.retries (llmGuidedMetric ev fn) := by
  have loop : ∀ n failed, Names type model ev.retries (retryLoop (fn w model) model ev.retries n failed) := by
    intro n
    induction n with
    | zero =>
      intro failed s m hm
      cases failed with
      | false => cases hm
      | true =>
        cases hm
        exact ⟨Or.inr rfl, rfl, rfl⟩
    | succ n ih =>
      intro failed s m hm
      simp only [retryLoop] at hm
      rcases hx : fn w model s with ⟨x, s'⟩
      rw [hx] at hm
      cases x with
      | ok m' =>
        cases hm
        obtain ⟨x, rfl⟩ := h _ _ _ _ _ hx
        exact ⟨Or.inl rfl, rfl, rfl⟩
      | error e =>
        cases e
        case invalid => exact ih true s' m hm
        all_goals cases hm
  intro s m hm
  unfold llmGuidedMetric at hm
  rw [hcl] at hm
  exact loop _ _ s m hm

theorem bind_result {f : Run σ α} {g : α → Run σ β} {s s' : σ} {b : β} (h : (f >>= g) s = (.ok b, s')) : ∃ a s1, g a s1 = (.ok b, s') := by
  change (match f s with | (.ok a, s') => g a s' | (.error e, s') => (.error e, s')) = _ at h
  rcases hx : f s with ⟨x, s1⟩
  rw [hx] at h
  cases x with
  | error e => cases h
  | ok a => exact ⟨a, s1, h⟩

theorem bind_value {f : Run σ α} {score : α → Rat} {type model : String} {r : Int} {s s' : σ} {m : Metric}
    (h : (f >>= fun x => (pure (.value type (score x) model r) : Run σ Metric)) s = (.ok m, s')) : ∃ x, m = .value type x model r := by
  obtain ⟨a, s1, h⟩ := bind_result h
  cases h
  exact ⟨score a, rfl⟩

theorem bind_context {qr : QueryResponse} {act : Context → Run σ Rat} {type model : String} {r : Int} {s s' : σ} {m : Metric}
    (h : (needContext qr >>= fun ctx => act ctx >>= fun x => (pure (.value type x model r) : Run σ Metric)) s = (.ok m, s')) :
    ∃ x, m = .value type x model r := by
  unfold needContext at h
  cases hq : qr.context with
  | none =>
    rw [hq] at h
    cases h
  | some ctx =>
    rw [hq] at h
    exact bind_value (f := act ctx) (score := id) h

/-- **C98 (names).** Every metric that a `compute_*` method returns is of the method's type or an error, and names the client's model and the number of
retries, whatever the LLM replied. -/
theorem C98_names {ev : Evaluator σ} {model : String} {w : World σ} (hcl : ev.client = some ⟨some model, w⟩) (qr : QueryResponse) :
    Names "AnswerCorrectness" model ev.retries (computeAnswerCorrectness ev qr) ∧ Names "AnswerRelevance" model ev.retries (computeAnswerRelevance ev qr) ∧
    Names "Bias" model ev.retries (computeBias ev qr) ∧ Names "ContextPrecision" model ev.retries (computeContextPrecision ev qr) ∧
    Names "ContextRecall" model ev.retries (computeContextRecall ev qr) ∧ Names "ContextRelevance" model ev.retries (computeContextRelevance ev qr) ∧
    Names "Faithfulness" model ev.retries (computeFaithfulness ev qr) ∧ Names "Hallucination" model ev.retries (computeHallucination ev qr) ∧
    Names "SummaryCoherence" model ev.retries (computeSummaryCoherence ev qr) ∧ Names "Toxicity" model ev.retries (computeToxicity ev qr) :=
  ⟨guided_names hcl (fun _ _ _ _ _ h => bind_context h), guided_names hcl (fun _ _ _ _ _ h => bind_value (score := id) h), guided_names hcl (fun _ _ _ _ _ h => bind_value (score := id) h),
    guided_names hcl (fun _ _ _ _ _ h => bind_context h), guided_names hcl (fun _ _ _ _ _ h => bind_context h), guided_names hcl (fun _ _ _ _ _ h => bind_context h),
    guided_names hcl (fun _ _ _ _ _ h => bind_context h), guided_names hcl (fun _ _ _ _ _ h => bind_context h), guided_names hcl (fun _ _ _ _ _ h => bind_value h),
    guided_names hcl (fun _ _ _ _ _ h => bind_value (score := id) h)⟩

/-! ## The hypotheses are met, and the bound is reached -/

/-- An LLM that counts its requests and never answers properly. -/
def useless : World Nat := ⟨fun s _ => (.ok [], s + 1), fun _ => .error .invalid, fun _ => none⟩

example : Counts useless id := fun _ _ => rfl
example : CountsFor (evaluator useless "m" "" 3) id := fun cl h => by cases h; exact fun _ _ => rfl
example : (computeSummaryCoherence (evaluator useless "m" "" 3) ⟨"q", "r", none⟩ 0).2 = 4 := by decide +kernel

end Verif.TextGen
