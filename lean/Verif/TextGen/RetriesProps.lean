import Verif.TextGen.SteadyProps
import Verif.TextGen.BleuProps

/-!
# C119: what more retries can change

(`text_generation/manager.py` 27-64, 183-551, 632-697)
-/

namespace Verif.TextGen

variable {σ : Type}

/-- The metric with another number of retries among its parameters. -/
def Metric.setRetries (r : Int) : Metric → Metric
  | .value t x m _ => .value t x m r
  | .error t m _ => .error t m r

/-- A computation of a score, reported as a metric. -/
def reporting (g : Run σ Rat) (T model : String) (r : Int) : Run σ Metric := do
  let x ← g
  return .value T x model r

theorem reporting_ok {g : Run σ Rat} {s s1 : σ} {x : Rat} (h : g s = (.ok x, s1)) (T model : String) (r : Int) :
    reporting g T model r s = (.ok (.value T x model r), s1) := by
  simp only [reporting, bind, pure, h]

theorem reporting_error {g : Run σ Rat} {s s1 : σ} {e : PyErr} (h : g s = (.error e, s1)) (T model : String) (r : Int) :
    reporting g T model r s = (.error e, s1) := by
  simp only [reporting, bind, h]

/-- A score and an exception stay when there are more attempts. -/
theorem retryLoop_more (g : Run σ Rat) (T model : String) (r r' : Int) : ∀ (n n' : Nat) (b b' : Bool) (s : σ), n ≤ n' →
    (∀ t x m k s1, retryLoop (reporting g T model r) model r n b s = (.ok (some (.value t x m k)), s1) →
      retryLoop (reporting g T model r') model r' n' b' s = (.ok (some (.value t x m r')), s1)) ∧
    (∀ e s1, retryLoop (reporting g T model r) model r n b s = (.error e, s1) →
      retryLoop (reporting g T model r') model r' n' b' s = (.error e, s1)) := by
  intro n
  induction n with
  | zero =>
    intro n' b b' s _
    constructor
    · intro t x m k s1 h
      have h1 : (Except.ok (if b then some (.error "InvalidLLMResponseError" model r) else none), s)
          = ((.ok (some (.value t x m k)) : Except PyErr (Option Metric)), s1) := h
      cases b <;> simp at h1
    · intro e s1 h
      have h1 : ((Except.ok (if b then some (.error "InvalidLLMResponseError" model r) else none) : Except PyErr (Option Metric)), s) = (.error e, s1) := h
      simp at h1
  | succ n ih =>
    intro n' b b' s hn
    obtain ⟨k, rfl⟩ : ∃ k, n' = k + 1 := ⟨n' - 1, by omega⟩
    rcases hg : g s with ⟨o, s2⟩
    cases o with
    | ok y =>
      simp only [retryLoop, reporting_ok hg]
      constructor
      · intro t x m k s1 h
        simp only [Prod.mk.injEq, Except.ok.injEq, Option.some.injEq, Metric.value.injEq] at h ⊢
        exact ⟨⟨h.1.1, h.1.2.1, h.1.2.2.1, trivial⟩, h.2⟩
      · intro e s1 h
        simp at h
    | error e =>
      simp only [retryLoop, reporting_error hg]
      cases e with
      | invalid => exact ih k true true s2 (by omega)
      | _ =>
        constructor
        · intro t x m k s1 h
          simp at h
        · intro e s1 h
          exact h

/-- With a computation that always does the same, the number of attempts does not matter. -/
theorem retryLoop_steady (g : Run σ Rat) (hd : Det g) (T model : String) (r r' : Int) (n n' : Nat) (s : σ) :
    (retryLoop (reporting g T model r') model r' (n' + 1) false s).1
      = (retryLoop (reporting g T model r) model r (n + 1) false s).1.map (Option.map (Metric.setRetries r')) := by
  have hinv : ∀ (k : Nat) (q : Int) (b : Bool) (s : σ), (∀ s, (g s).1 = .error .invalid) →
      (retryLoop (reporting g T model q) model q (k + 1) b s).1 = .ok (some (.error "InvalidLLMResponseError" model q)) := by
    intro k q
    induction k with
    | zero =>
      intro b s h
      have hg : g s = (.error .invalid, (g s).2) := Prod.ext (h s) rfl
      simp only [retryLoop, reporting_error hg]
      rfl
    | succ k ih =>
      intro b s h
      have hg : g s = (.error .invalid, (g s).2) := Prod.ext (h s) rfl
      rw [retryLoop]
      simp only [reporting_error hg]
      exact ih true (g s).2 h
  rcases hg : g s with ⟨o, s2⟩
  cases o with
  | ok y =>
    simp only [retryLoop, reporting_ok hg]
    rfl
  | error e =>
    by_cases he : e = .invalid
    · have h : ∀ s, (g s).1 = .error .invalid := fun s' => by
        rw [hd.same s' s, hg, he]
      rw [hinv n' r' false s h, hinv n r false s h]
      rfl
    · simp only [retryLoop, reporting_error hg]
      cases e with
      | invalid => exact absurd rfl he
      | _ => rfl

/-- A guided metric: what it computes does not depend on the number of retries. -/
def Guided (compute : Evaluator σ → QueryResponse → Run σ (Option Metric)) (qr : QueryResponse) : Prop :=
  ∃ (T : String) (g : World σ → String → Run σ Rat), (∀ w sys, Steady w → Det (g w sys)) ∧
    ∀ ev : Evaluator σ, compute ev qr = llmGuidedMetric ev (fun w model => reporting (g w ev.systemPrompt) T model ev.retries)

theorem bind_bind {α β γ : Type} (m : Run σ α) (f : α → Run σ β) (h : β → Run σ γ) : (m >>= f >>= h) = (m >>= fun a => f a >>= h) := by
  funext s
  simp only [bind]
  rcases m s with ⟨o, s1⟩
  cases o <;> rfl

/-- The ten guided metrics. -/
def guidedComputations : List (Evaluator σ → QueryResponse → Run σ (Option Metric)) :=
  [computeAnswerCorrectness, computeAnswerRelevance, computeBias, computeContextPrecision, computeContextRecall,
    computeContextRelevance, computeFaithfulness, computeHallucination, computeSummaryCoherence, computeToxicity]

theorem guided_all (qr : QueryResponse) : ∀ compute ∈ (guidedComputations : List (Evaluator σ → QueryResponse → Run σ (Option Metric))), Guided compute qr := by
  intro compute hc
  simp only [guidedComputations, List.mem_cons, List.not_mem_nil, or_false] at hc
  rcases hc with rfl | rfl | rfl | rfl | rfl | rfl | rfl | rfl | rfl | rfl
  · refine ⟨"AnswerCorrectness", fun w sys => needContext qr >>= fun c => calculateAnswerCorrectness w sys qr.query qr.response c.groundtruth, ?_, ?_⟩
    · exact fun w sys hw => det_bind (det_context qr) (fun _ => det_correctness hw ..)
    · intro ev
      unfold computeAnswerCorrectness reporting
      simp only [bind_bind]
  · exact ⟨_, fun w sys => calculateAnswerRelevance w sys qr.query qr.response, fun w sys hw => det_relevance hw .., fun ev => rfl⟩
  · exact ⟨_, fun w sys => calculateBias w sys qr.response, fun w sys hw => det_bias hw .., fun ev => rfl⟩
  · refine ⟨"ContextPrecision", fun w sys => needContext qr >>= fun c => calculateContextPrecision w sys qr.query c.prediction c.groundtruth, ?_, ?_⟩
    · exact fun w sys hw => det_bind (det_context qr) (fun _ => det_precision hw ..)
    · intro ev
      unfold computeContextPrecision reporting
      simp only [bind_bind]
  · refine ⟨"ContextRecall", fun w sys => needContext qr >>= fun c => calculateContextRecall w sys c.prediction c.groundtruth, ?_, ?_⟩
    · exact fun w sys hw => det_bind (det_context qr) (fun _ => det_recall hw ..)
    · intro ev
      unfold computeContextRecall reporting
      simp only [bind_bind]
  · refine ⟨"ContextRelevance", fun w sys => needContext qr >>= fun c => calculateContextRelevance w sys qr.query c.prediction, ?_, ?_⟩
    · exact fun w sys hw => det_bind (det_context qr) (fun _ => det_contextRelevance hw ..)
    · intro ev
      unfold computeContextRelevance reporting
      simp only [bind_bind]
  · refine ⟨"Faithfulness", fun w sys => needContext qr >>= fun c => calculateFaithfulness w sys qr.response c.prediction, ?_, ?_⟩
    · exact fun w sys hw => det_bind (det_context qr) (fun _ => det_faithfulness hw ..)
    · intro ev
      unfold computeFaithfulness reporting
      simp only [bind_bind]
  · refine ⟨"Hallucination", fun w sys => needContext qr >>= fun c => calculateHallucination w sys qr.response c.prediction, ?_, ?_⟩
    · exact fun w sys hw => det_bind (det_context qr) (fun _ => det_hallucination hw ..)
    · intro ev
      unfold computeHallucination reporting
      simp only [bind_bind]
  · refine ⟨"SummaryCoherence", fun w sys => calculateSummaryCoherence w sys qr.query qr.response >>= fun n => pure (n : Rat), ?_, ?_⟩
    · exact fun w sys hw => det_bind (det_coherence hw ..) (fun _ => det_pure _)
    · intro ev
      unfold computeSummaryCoherence reporting
      simp only [bind_bind]
      rfl
  · exact ⟨_, fun w sys => calculateToxicity w sys qr.response, fun w sys hw => det_toxicity hw .., fun ev => rfl⟩

variable {w : World σ} {model sys : String} {qr : QueryResponse}

/-- **C119 (more retries).** Whatever the LLM does: a score that is reported with some number of retries is reported with more retries too, and so is an
exception, with the same requests. Only an error metric can change. -/
theorem C119_more {r r' : Nat} (hr : r ≤ r') (s : σ) : ∀ compute ∈ guidedComputations,
    (∀ t x m k s1, compute (evaluator w model sys r) qr s = (.ok (some (.value t x m k)), s1) →
      compute (evaluator w model sys r') qr s = (.ok (some (.value t x m r')), s1)) ∧
    (∀ e s1, compute (evaluator w model sys r) qr s = (.error e, s1) → compute (evaluator w model sys r') qr s = (.error e, s1)) := by
  intro compute hc
  obtain ⟨T, g, _, hg⟩ := guided_all qr compute hc
  rw [hg, hg]
  exact retryLoop_more (g w sys) T model r r' _ _ false false s (by show (1 + (r : Int)).toNat ≤ (1 + (r' : Int)).toNat; omega)

/-- **C119 (steady LLM).** If the LLM answers the same message always in the same way, the number of retries does not change the outcome: the same score, the same
exception, or an error metric in both cases. -/
theorem C119_steady (hw : Steady w) (r r' : Nat) (s : σ) : ∀ compute ∈ guidedComputations,
    (compute (evaluator w model sys r') qr s).1 = (compute (evaluator w model sys r) qr s).1.map (Option.map (Metric.setRetries r')) := by
  intro compute hc
  obtain ⟨T, g, hd, hg⟩ := guided_all qr compute hc
  rw [hg, hg]
  have e : ∀ q : Nat, (1 + (q : Int)).toNat = q + 1 := fun q => by omega
  have := retryLoop_steady (g w sys) (hd w sys hw) T model r r' r r' s
  rw [← e r, ← e r'] at this
  exact this

/-- **C119 (compute_all).** If the LLM answers the same message always in the same way, the entries of `compute_all` are what the single methods give on their own,
whenever they are called. -/
theorem C119_all (ev : Evaluator σ) (hev : ∀ c, ev.client = some c → Steady c.world) (cc : CharClasses) (bleu : BleuLib) (rouge : RougeLib) (weights : List Rat)
    (types : List String) (stem : Bool) (s s' : σ) (all : AllMetrics) (h : computeAll ev cc bleu rouge qr weights types stem s = (.ok all, s')) :
    List.Forall₂ (fun m x => m.1 = x.1 ∧ ∀ s0, (m.2 s0).1 = .ok x.2)
      [("AnswerCorrectness", computeAnswerCorrectness ev qr), ("AnswerRelevance", computeAnswerRelevance ev qr),
        ("Bias", computeBias ev qr), ("ContextPrecision", computeContextPrecision ev qr), ("ContextRecall", computeContextRecall ev qr),
        ("ContextRelevance", computeContextRelevance ev qr), ("Faithfulness", computeFaithfulness ev qr), ("Hallucination", computeHallucination ev qr),
        ("SummaryCoherence", computeSummaryCoherence ev qr), ("Toxicity", computeToxicity ev qr)] all.guided := by
  have ht := ((C69_entries ev bleu rouge qr weights types stem s s' all).1 h).1
  have hrep := C114_repeat ev hev qr
  have key : ∀ {ms : List (String × Run σ (Option Metric))} {s xs s'}, InTurn ms s xs s' → (∀ m ∈ ms, ∀ s s', (m.2 s).1 = (m.2 s').1) →
      List.Forall₂ (fun m x => m.1 = x.1 ∧ ∀ s0, (m.2 s0).1 = .ok x.2) ms xs := by
    intro ms s xs s' hi
    induction hi with
    | nil => intro _; exact List.Forall₂.nil
    | cons h1 _ ih =>
      intro hs
      refine List.Forall₂.cons ⟨rfl, fun s0 => ?_⟩ (ih (fun m hm => hs m (List.mem_cons_of_mem _ hm)))
      rw [hs _ List.mem_cons_self s0 _]
      exact congrArg Prod.fst h1
  refine key ht ?_
  intro m hm
  simp only [List.mem_cons, List.not_mem_nil, or_false] at hm
  rcases hm with rfl | rfl | rfl | rfl | rfl | rfl | rfl | rfl | rfl | rfl <;> exact hrep _ (by simp)

/-! ## Samples -/

set_option maxRecDepth 100000

/-- `C119_more`: the second attempt succeeds; without retries there is an error metric, with one or five the same score and the same requests. -/
example : computeBias (evaluator script "m" "sys" (0 : Nat)) sampleQuery ["?", "{\"opinions\": []}", "unused"]
      = (.ok (some (.error "InvalidLLMResponseError" "m" 0)), ["{\"opinions\": []}", "unused"]) ∧
    computeBias (evaluator script "m" "sys" (1 : Nat)) sampleQuery ["?", "{\"opinions\": []}", "unused"] = (.ok (some (.value "Bias" 0 "m" 1)), ["unused"]) ∧
    computeBias (evaluator script "m" "sys" (5 : Nat)) sampleQuery ["?", "{\"opinions\": []}", "unused"] = (.ok (some (.value "Bias" 0 "m" 5)), ["unused"]) := by
  decide +kernel

/-- An LLM with a fixed answer to each kind of message; the one about summaries is not accepted. -/
def fixedReplies : World Unit where
  call _ m := (.ok (match m.user with
    | .claims _ => "{\"claims\": [\"c\"]}".toList
    | .opinions _ => "{\"opinions\": [\"o\"]}".toList
    | .statements _ => "{\"statements\": [\"b\"]}".toList
    | .answerCorrectness _ _ _ => "{\"TP\": [\"b\"], \"FP\": [], \"FN\": []}".toList
    | .summaryCoherence _ _ => "0".toList
    | _ => "{\"verdicts\": [{\"verdict\": \"yes\", \"analysis\": \"\"}]}".toList), ())
  loads := loads 900
  digit := asciiDigit

theorem fixedReplies_steady : Steady fixedReplies := fun _ _ _ => rfl

/-- What `compute_all` gives with it. -/
def replies : List (String × Option Metric) :=
  [("AnswerCorrectness", some (.value "AnswerCorrectness" 1 "m" 1)), ("AnswerRelevance", some (.value "AnswerRelevance" 1 "m" 1)),
        ("Bias", some (.value "Bias" 1 "m" 1)), ("ContextPrecision", some (.value "ContextPrecision" 1 "m" 1)),
        ("ContextRecall", some (.value "ContextRecall" 1 "m" 1)), ("ContextRelevance", some (.value "ContextRelevance" 1 "m" 1)),
        ("Faithfulness", some (.value "Faithfulness" 1 "m" 1)), ("Hallucination", some (.value "Hallucination" 1 "m" 1)),
        ("SummaryCoherence", some (.error "InvalidLLMResponseError" "m" 1)), ("Toxicity", some (.value "Toxicity" 1 "m" 1))]

/-- `C119_steady` and `C119_all`: a steady LLM, with scores and an error metric. -/
example : Steady fixedReplies ∧
    (computeSummaryCoherence (evaluator fixedReplies "m" "sys" (3 : Nat)) ⟨"q", "r", none⟩ ()).1 = .ok (some (.error "InvalidLLMResponseError" "m" 3)) ∧
    ∃ all, computeAll (evaluator fixedReplies "m" "sys" (1 : Nat)) ascii (fun _ _ _ => .ok 0) (fun _ _ _ _ => .ok none) ⟨"q", "r", some ⟨["g"], ["p"]⟩⟩ [1] [] false ()
      = (.ok all, ()) ∧ all.guided.map Prod.snd = ["AnswerCorrectness", "AnswerRelevance", "Bias", "ContextPrecision", "ContextRecall", "ContextRelevance",
        "Faithfulness", "Hallucination"].map (fun t => some (Metric.value t 1 "m" 1))
        ++ [some (.error "InvalidLLMResponseError" "m" 1), some (.value "Toxicity" 1 "m" 1)] := by
  refine ⟨fixedReplies_steady, by decide +kernel, ?_⟩
  have h : computeAllGuided (evaluator fixedReplies "m" "sys" (1 : Nat)) ⟨"q", "r", some ⟨["g"], ["p"]⟩⟩ ()
      = (.ok replies, ()) := by
    decide +kernel
  refine ⟨⟨replies, [], ⟨0, [1]⟩⟩, ?_, by decide +kernel⟩
  simp only [computeAll, bind, h, Run.lift, computeRouge, calculateRougeScores, computeSentenceBleu, calculateSentenceBleu, pure]
  simp

end Verif.TextGen
