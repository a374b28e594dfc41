import Verif.TextGen.Text
import Mathlib.Data.Rat.Defs
import Mathlib.Algebra.Order.Field.Rat

/-!
# LLM guided metrics
(`text_generation/llm/generation.py`, `computation.py`, `manager.py`, `llm/integrations.py`)

The LLM is a stateful adversary: each call takes the state of the world to a reply (or an exception) and a new
state. `json.loads` and the table of Unicode digits are parameters, so that every theorem holds for each
behaviour of them. Scores are exact rationals instead of doubles.
-/

namespace Verif.TextGen

/-- What is asked of the LLM: one constructor for each `format_*_instruction` of `llm/instructions.py` with the
values put into the template. The wording of the templates is in `Verif.TextGen.Prompt`. -/
inductive Instruction where
  | claims (text : String)
  | opinions (text : String)
  | statements (text : String)
  | answerCorrectness (query : String) (predictions groundtruths : List String)
  | answerRelevance (query : String) (statements : List String)
  | bias (opinions : List String)
  | contextPrecision (query : String) (contexts : List String) (groundtruth : String)
  | contextRecall (contexts statements : List String)
  | contextRelevance (query : String) (contexts : List String)
  | faithfulness (claims contexts : List String)
  | hallucination (text : String) (contexts : List String)
  | summaryCoherence (text summary : String)
  | toxicity (opinions : List String)
  deriving DecidableEq, Repr

/-- The messages of a call: system prompt and user message (e.g. `generation.py` 98-107). -/
structure Message where
  system : String
  user : Instruction
  deriving DecidableEq, Repr

/-- The outside world: the LLM client, the JSON library, the table of decimal digits. `loads` gives a dictionary
since the text it gets starts with a brace; its failure `invalid` stands for `json.JSONDecodeError`, every other
error is one that is not a `JSONDecodeError`. -/
structure World (σ : Type) where
  call : σ → Message → Except PyErr (List Char) × σ
  loads : List Char → Except PyErr Dict
  digit : Char → Option Nat

/-- Computations that talk to the LLM and may raise. -/
def Run (σ α : Type) := σ → Except PyErr α × σ

instance {σ : Type} : Monad (Run σ) where
  pure a := fun s => (.ok a, s)
  bind m f := fun s => match m s with
    | (.ok a, s') => f a s'
    | (.error e, s') => (.error e, s')

/-- `raise` -/
def Run.raise {σ α : Type} (e : PyErr) : Run σ α := fun s => (.error e, s)

/-- A computation that does not talk to the LLM. -/
def Run.lift {σ α : Type} (x : Except PyErr α) : Run σ α := fun s => (x, s)

variable {σ : Type}

/-- `client(messages)` (`generation.py` 56, 829). -/
def World.ask (w : World σ) (m : Message) : Run σ (List Char) := fun s => w.call s m

/-! ## `llm/generation.py` -/

/-- `trim_and_load_json` (`utilities.py` 8-36). -/
def trimAndLoadJson (w : World σ) (text : List Char) : Except PyErr Dict :=
  match searchBraces text with
  | none => .error .invalid
  | some t => w.loads t

/-- The loop over the keys in `_generate` (`generation.py` 58-64). The keys are a set, which has no fixed order. -/
def validateKeys (validator : Dict → String → Option (List String) → Option Nat → Except PyErr Unit)
    (d : Dict) (allowed : Option (List String)) (len : Option Nat) : List String → Except PyErr Unit
  | [] => .ok ()
  | k :: ks => match validator d k allowed len with
    | .error e => .error e
    | .ok _ => validateKeys validator d allowed len ks

/-- `_generate` (`generation.py` 30-65). -/
def generate (w : World σ) (msg : Message) (keys : List String)
    (validator : Dict → String → Option (List String) → Option Nat → Except PyErr Unit)
    (allowed : Option (List String) := none) (len : Option Nat := none) : Run σ Dict := do
  let text ← w.ask msg
  let d ← Run.lift (trimAndLoadJson w text)
  Run.lift (validateKeys validator d allowed len keys)
  return d

/-- `response[key]`, a list of strings after validation. -/
def stringsAt (d : Dict) (key : String) : Except PyErr (List String) :=
  match d.get key with
  | none => .error .keyError
  | some (.arr xs) => .ok (xs.filterMap (fun x => match x with | .str s => some s | _ => none))
  | some _ => .error .typeError

/-- `response[key]`, a list after validation. -/
def listAt (d : Dict) (key : String) : Except PyErr (List Json) :=
  match d.get key with
  | none => .error .keyError
  | some (.arr xs) => .ok xs
  | some _ => .error .typeError

/-- `generate_claims` (`generation.py` 68-110). -/
def generateClaims (w : World σ) (sys text : String) : Run σ (List String) := do
  let d ← generate w ⟨sys, .claims text⟩ ["claims"] validateStatements
  Run.lift (stringsAt d "claims")

/-- `generate_opinions` (`generation.py` 113-154). -/
def generateOpinions (w : World σ) (sys text : String) : Run σ (List String) := do
  let d ← generate w ⟨sys, .opinions text⟩ ["opinions"] validateStatements
  Run.lift (stringsAt d "opinions")

/-- `generate_statements` (`generation.py` 157-200). -/
def generateStatements (w : World σ) (sys text : String) : Run σ (List String) := do
  let d ← generate w ⟨sys, .statements text⟩ ["statements"] validateStatements
  Run.lift (stringsAt d "statements")

/-- `generate_answer_correctness_verdicts` (`generation.py` 203-281): true positives, false positives and false
negatives. -/
def generateAnswerCorrectnessVerdicts (w : World σ) (sys query : String) (preds gts : List String) :
    Run σ (List String × List String × List String) := do
  let d ← generate w ⟨sys, .answerCorrectness query preds gts⟩ ["TP", "FP", "FN"] validateStatements
  let tp ← Run.lift (stringsAt d "TP")
  let fp ← Run.lift (stringsAt d "FP")
  if tp.length + fp.length ≠ preds.length then Run.raise .invalid
  else do
    let fn ← Run.lift (stringsAt d "FN")
    if fn.length > gts.length then Run.raise .invalid else return (tp, fp, fn)

/-- The common shape of the `generate_*_verdicts` functions: key `verdicts`, allowed values, one verdict for each
input. -/
def generateVerdicts (w : World σ) (msg : Message) (allowed : List String) (n : Nat) : Run σ (List Json) := do
  let d ← generate w msg ["verdicts"] validateVerdicts (some allowed) (some n)
  Run.lift (listAt d "verdicts")

/-- `generate_answer_relevance_verdicts` (`generation.py` 284-350). -/
def generateAnswerRelevanceVerdicts (w : World σ) (sys query : String) (statements : List String) :=
  generateVerdicts w ⟨sys, .answerRelevance query statements⟩ ["yes", "no", "idk"] statements.length

/-- `generate_bias_verdicts` (`generation.py` 353-412). -/
def generateBiasVerdicts (w : World σ) (sys : String) (opinions : List String) :=
  generateVerdicts w ⟨sys, .bias opinions⟩ ["yes", "no"] opinions.length

/-- `generate_context_precision_verdicts` (`generation.py` 415-491). -/
def generateContextPrecisionVerdicts (w : World σ) (sys query : String) (contexts : List String) (gt : String) :=
  generateVerdicts w ⟨sys, .contextPrecision query contexts gt⟩ ["yes", "no"] contexts.length

/-- `generate_context_recall_verdicts` (`generation.py` 494-581). -/
def generateContextRecallVerdicts (w : World σ) (sys : String) (contexts statements : List String) :=
  generateVerdicts w ⟨sys, .contextRecall contexts statements⟩ ["yes", "no"] statements.length

/-- `generate_context_relevance_verdicts` (`generation.py` 584-644). -/
def generateContextRelevanceVerdicts (w : World σ) (sys query : String) (contexts : List String) :=
  generateVerdicts w ⟨sys, .contextRelevance query contexts⟩ ["yes", "no"] contexts.length

/-- `generate_faithfulness_verdicts` (`generation.py` 647-725). -/
def generateFaithfulnessVerdicts (w : World σ) (sys : String) (claims contexts : List String) :=
  generateVerdicts w ⟨sys, .faithfulness claims contexts⟩ ["yes", "no"] claims.length

/-- `generate_hallucination_verdicts` (`generation.py` 728-795). -/
def generateHallucinationVerdicts (w : World σ) (sys text : String) (contexts : List String) :=
  generateVerdicts w ⟨sys, .hallucination text contexts⟩ ["yes", "no"] contexts.length

/-- `generate_toxicity_verdicts` (`generation.py` 844-903). -/
def generateToxicityVerdicts (w : World σ) (sys : String) (opinions : List String) :=
  generateVerdicts w ⟨sys, .toxicity opinions⟩ ["yes", "no"] opinions.length

/-- `generate_summary_coherence` (`generation.py` 798-841). -/
def generateSummaryCoherence (w : World σ) (sys text summary : String) : Run σ Int := do
  let reply ← w.ask ⟨sys, .summaryCoherence text summary⟩
  let r ← Run.lift (findFirstSignedInteger w.digit reply)
  match r with
  | none => Run.raise .invalid
  | some n => if n ∉ ([1, 2, 3, 4, 5] : List Int) then Run.raise .invalid else return n

/-! ## `computation.py` -/

/-- `verdict["verdict"] == "yes"` -/
def isYes (v : Json) : Except PyErr Bool :=
  match v with
  | .obj kvs => match Dict.get kvs "verdict" with
    | none => .error .keyError
    | some (.str s) => .ok (s == "yes")
    | some _ => .ok false
  | _ => .error .typeError

/-- `[verdict["verdict"] == "yes" for verdict in verdicts]` -/
def yesFlags : List Json → Except PyErr (List Bool)
  | [] => .ok []
  | v :: vs => match isYes v with
    | .error e => .error e
    | .ok b => match yesFlags vs with
      | .error e => .error e
      | .ok bs => .ok (b :: bs)

/-- `a / b` on integers. -/
def pyDiv (a b : Nat) : Except PyErr Rat := if b = 0 then .error .zeroDivision else .ok ((a : Rat) / (b : Rat))

/-- `sum(verdict["verdict"] == "yes" for verdict in verdicts) / len(verdicts)` -/
def yesShare (verdicts : List Json) : Except PyErr Rat :=
  match yesFlags verdicts with
  | .error e => .error e
  | .ok bs => pyDiv (bs.count true) verdicts.length

/-- `tp / (tp + 0.5 * (fp + fn)) if tp > 0 else 0` (`computation.py` 82). -/
def f1Score (tp fp fn : Nat) : Rat := if tp > 0 then (tp : Rat) / ((tp : Rat) + (1 / 2) * ((fp : Rat) + (fn : Rat))) else 0

/-- `max(xs)`; `ValueError` on an empty list. -/
def pyMax : List Rat → Except PyErr Rat
  | [] => .error .valueError
  | x :: xs => .ok (xs.foldl (fun m y => if y > m then y else m) x)

/-- The loop of `calculate_answer_correctness` (`computation.py` 63-82). -/
def answerCorrectnessLoop (w : World σ) (sys query : String) (preds : List String) : List String → Run σ (List Rat)
  | [] => return []
  | gt :: gts => do
    let stmts ← generateStatements w sys gt
    let v ← generateAnswerCorrectnessVerdicts w sys query preds stmts
    let rest ← answerCorrectnessLoop w sys query preds gts
    return f1Score v.1.length v.2.1.length v.2.2.length :: rest

/-- `calculate_answer_correctness` (`computation.py` 19-84). -/
def calculateAnswerCorrectness (w : World σ) (sys query response : String) (groundtruths : List String) :
    Run σ Rat := do
  let preds ← generateStatements w sys response
  let scores ← answerCorrectnessLoop w sys query preds groundtruths
  Run.lift (pyMax (0 :: scores))

/-- `calculate_answer_relevance` (`computation.py` 87-130). -/
def calculateAnswerRelevance (w : World σ) (sys query response : String) : Run σ Rat := do
  let stmts ← generateStatements w sys response
  let verdicts ← generateAnswerRelevanceVerdicts w sys query stmts
  if verdicts.length = 0 then return 0 else Run.lift (yesShare verdicts)

/-- `calculate_bias` (`computation.py` 133-172). -/
def calculateBias (w : World σ) (sys response : String) : Run σ Rat := do
  let opinions ← generateOpinions w sys response
  if opinions.length = 0 then return 0
  else do
    let verdicts ← generateBiasVerdicts w sys opinions
    Run.lift (yesShare verdicts)

/-- `for i in range(len(verdicts)): if verdicts[i]["verdict"] == "yes": aggregate_verdicts[i] = "yes"`
(`computation.py` 241-243); more verdicts than entries would be an `IndexError`. -/
def aggregate : List Bool → List Bool → Except PyErr (List Bool)
  | agg, [] => .ok agg
  | [], b :: bs => if b then .error .indexError else aggregate [] bs
  | a :: agg, b :: bs => match aggregate agg bs with
    | .error e => .error e
    | .ok r => .ok ((if b then true else a) :: r)

/-- The loop over the ground truths in `calculate_context_precision` (`computation.py` 233-243). -/
def contextPrecisionLoop (w : World σ) (sys query : String) (contexts : List String) :
    List String → List Bool → Run σ (List Bool)
  | [], agg => return agg
  | gt :: gts, agg => do
    let verdicts ← generateContextPrecisionVerdicts w sys query contexts gt
    let flags ← Run.lift (yesFlags verdicts)
    let agg' ← Run.lift (aggregate agg flags)
    contextPrecisionLoop w sys query contexts gts agg'

/-- `precision_at_k_list` (`computation.py` 246-253): `k` runs from 1 to the number of contexts. -/
def precisionAtK (agg : List Bool) : List Rat :=
  (List.range agg.length).filterMap (fun k =>
    if agg[k]? = some true then some (((agg.take (k + 1)).count true : Rat) / ((k + 1 : Nat) : Rat)) else none)

/-- The last lines of `calculate_context_precision` (`computation.py` 246-260). -/
def contextPrecisionOf (agg : List Bool) : Rat :=
  if (precisionAtK agg).length = 0 then 0 else (precisionAtK agg).sum / ((precisionAtK agg).length : Rat)

/-- `calculate_context_precision` (`computation.py` 175-260). -/
def calculateContextPrecision (w : World σ) (sys query : String) (predicted groundtruth : List String) :
    Run σ Rat :=
  if predicted.length = 0 ∧ groundtruth.length = 0 then return 1
  else if predicted.length = 0 ∨ groundtruth.length = 0 then return 0
  else do
    let agg ← contextPrecisionLoop w sys query predicted groundtruth (List.replicate predicted.length false)
    return contextPrecisionOf agg

/-- The loop of `calculate_context_recall` (`computation.py` 299-316). -/
def contextRecallLoop (w : World σ) (sys : String) (predicted : List String) : List String → Run σ (List Rat)
  | [] => return []
  | gt :: gts => do
    let stmts ← generateStatements w sys gt
    let verdicts ← generateContextRecallVerdicts w sys predicted stmts
    let x ← Run.lift (yesShare verdicts)
    let rest ← contextRecallLoop w sys predicted gts
    return x :: rest

/-- `calculate_context_recall` (`computation.py` 263-318). -/
def calculateContextRecall (w : World σ) (sys : String) (predicted groundtruth : List String) : Run σ Rat :=
  if predicted.length = 0 ∧ groundtruth.length = 0 then return 1
  else if predicted.length = 0 ∨ groundtruth.length = 0 then return 0
  else do
    let scores ← contextRecallLoop w sys predicted groundtruth
    Run.lift (pyMax scores)

/-- `calculate_context_relevance` (`computation.py` 321-359). -/
def calculateContextRelevance (w : World σ) (sys query : String) (context : List String) : Run σ Rat :=
  if context.length = 0 then return 0
  else do
    let verdicts ← generateContextRelevanceVerdicts w sys query context
    Run.lift (yesShare verdicts)

/-- `calculate_faithfulness` (`computation.py` 362-410). -/
def calculateFaithfulness (w : World σ) (sys response : String) (context : List String) : Run σ Rat :=
  if context.length = 0 then return 0
  else do
    let claims ← generateClaims w sys response
    if claims.length = 0 then return 1
    else do
      let verdicts ← generateFaithfulnessVerdicts w sys claims context
      Run.lift (yesShare verdicts)

/-- `calculate_hallucination` (`computation.py` 413-451). -/
def calculateHallucination (w : World σ) (sys response : String) (context : List String) : Run σ Rat :=
  if context.length = 0 then Run.raise .valueError
  else do
    let verdicts ← generateHallucinationVerdicts w sys response context
    Run.lift (yesShare verdicts)

/-- `calculate_summary_coherence` (`computation.py` 454-486). -/
def calculateSummaryCoherence (w : World σ) (sys text summary : String) : Run σ Int :=
  generateSummaryCoherence w sys text summary

/-- `calculate_toxicity` (`computation.py` 489-527). -/
def calculateToxicity (w : World σ) (sys response : String) : Run σ Rat := do
  let opinions ← generateOpinions w sys response
  if opinions.length = 0 then return 0
  else do
    let verdicts ← generateToxicityVerdicts w sys opinions
    Run.lift (yesShare verdicts)

/-! ## `manager.py` -/

/-- `Context` (`annotation.py` 5-25). -/
structure Context where
  groundtruth : List String
  prediction : List String

/-- `QueryResponse` (`annotation.py` 28-55). -/
structure QueryResponse where
  query : String
  response : String
  context : Option Context

/-- `Metric` (`metric.py` 22-72) with the fields that differ between calls: an `Error` metric holds a dictionary
(here the name of the exception), the others a number. -/
inductive Metric where
  | value (type : String) (x : Rat) (evaluator : String) (retries : Int)
  | error (errorType : String) (evaluator : String) (retries : Int)
  deriving DecidableEq

/-- The client object as the evaluator sees it: it may lack a model name. -/
structure Client (σ : Type) where
  modelName : Option String
  world : World σ

/-- `Evaluator` (`manager.py` 66-102). -/
structure Evaluator (σ : Type) where
  client : Option (Client σ)
  retries : Int
  systemPrompt : String

/-- The loop of `llm_guided_metric` (`manager.py` 50-62) with `n` attempts left; `failed` tells whether an attempt
failed before. `none` is Python's `None`. -/
def retryLoop (fn : Run σ Metric) (model : String) (retries : Int) : Nat → Bool → Run σ (Option Metric)
  | 0, failed => return (if failed then some (.error "InvalidLLMResponseError" model retries) else none)
  | n + 1, _ => fun s => match fn s with
    | (.ok m, s') => (.ok (some m), s')
    | (.error .invalid, s') => retryLoop fn model retries n true s'
    | (.error e, s') => (.error e, s')

/-- `llm_guided_metric` (`manager.py` 27-64): `fn` is the decorated method, given the client and its model
name. -/
def llmGuidedMetric (ev : Evaluator σ) (fn : World σ → String → Run σ Metric) : Run σ (Option Metric) :=
  match ev.client with
  | none => Run.raise .valueError
  | some c => match c.modelName with
    | none => Run.raise .attributeError
    | some model => retryLoop (fn c.world model) model ev.retries (1 + ev.retries).toNat false

/-- `if not response.context: raise ValueError`: an instance of `Context` is never false. -/
def needContext (qr : QueryResponse) : Run σ Context :=
  match qr.context with
  | none => Run.raise .valueError
  | some c => return c

/-- `compute_answer_correctness` (`manager.py` 183-226). -/
def computeAnswerCorrectness (ev : Evaluator σ) (qr : QueryResponse) : Run σ (Option Metric) :=
  llmGuidedMetric ev (fun w model => do
    let c ← needContext qr
    let x ← calculateAnswerCorrectness w ev.systemPrompt qr.query qr.response c.groundtruth
    return .value "AnswerCorrectness" x model ev.retries)

/-- `compute_answer_relevance` (`manager.py` 228-256). -/
def computeAnswerRelevance (ev : Evaluator σ) (qr : QueryResponse) : Run σ (Option Metric) :=
  llmGuidedMetric ev (fun w model => do
    let x ← calculateAnswerRelevance w ev.systemPrompt qr.query qr.response
    return .value "AnswerRelevance" x model ev.retries)

/-- `compute_bias` (`manager.py` 258-285). -/
def computeBias (ev : Evaluator σ) (qr : QueryResponse) : Run σ (Option Metric) :=
  llmGuidedMetric ev (fun w model => do
    let x ← calculateBias w ev.systemPrompt qr.response
    return .value "Bias" x model ev.retries)

/-- `compute_context_precision` (`manager.py` 287-339). -/
def computeContextPrecision (ev : Evaluator σ) (qr : QueryResponse) : Run σ (Option Metric) :=
  llmGuidedMetric ev (fun w model => do
    let c ← needContext qr
    let x ← calculateContextPrecision w ev.systemPrompt qr.query c.prediction c.groundtruth
    return .value "ContextPrecision" x model ev.retries)

/-- `compute_context_recall` (`manager.py` 341-379). -/
def computeContextRecall (ev : Evaluator σ) (qr : QueryResponse) : Run σ (Option Metric) :=
  llmGuidedMetric ev (fun w model => do
    let c ← needContext qr
    let x ← calculateContextRecall w ev.systemPrompt c.prediction c.groundtruth
    return .value "ContextRecall" x model ev.retries)

/-- `compute_context_relevance` (`manager.py` 381-415). -/
def computeContextRelevance (ev : Evaluator σ) (qr : QueryResponse) : Run σ (Option Metric) :=
  llmGuidedMetric ev (fun w model => do
    let c ← needContext qr
    let x ← calculateContextRelevance w ev.systemPrompt qr.query c.prediction
    return .value "ContextRelevance" x model ev.retries)

/-- `compute_faithfulness` (`manager.py` 417-453). -/
def computeFaithfulness (ev : Evaluator σ) (qr : QueryResponse) : Run σ (Option Metric) :=
  llmGuidedMetric ev (fun w model => do
    let c ← needContext qr
    let x ← calculateFaithfulness w ev.systemPrompt qr.response c.prediction
    return .value "Faithfulness" x model ev.retries)

/-- `compute_hallucination` (`manager.py` 455-489). -/
def computeHallucination (ev : Evaluator σ) (qr : QueryResponse) : Run σ (Option Metric) :=
  llmGuidedMetric ev (fun w model => do
    let c ← needContext qr
    let x ← calculateHallucination w ev.systemPrompt qr.response c.prediction
    return .value "Hallucination" x model ev.retries)

/-- `compute_summary_coherence` (`manager.py` 491-521): the query is the text, the response the summary. -/
def computeSummaryCoherence (ev : Evaluator σ) (qr : QueryResponse) : Run σ (Option Metric) :=
  llmGuidedMetric ev (fun w model => do
    let x ← calculateSummaryCoherence w ev.systemPrompt qr.query qr.response
    return .value "SummaryCoherence" (x : Rat) model ev.retries)

/-- `compute_toxicity` (`manager.py` 523-551). -/
def computeToxicity (ev : Evaluator σ) (qr : QueryResponse) : Run σ (Option Metric) :=
  llmGuidedMetric ev (fun w model => do
    let x ← calculateToxicity w ev.systemPrompt qr.response
    return .value "Toxicity" x model ev.retries)

/-- A computation for each key, one after the other; the first exception ends it. -/
def runAll : List (String × Run σ (Option Metric)) → Run σ (List (String × Option Metric))
  | [] => return []
  | (k, m) :: ms => do
    let x ← m
    let rest ← runAll ms
    return (k, x) :: rest

/-- The LLM guided part of `compute_all` (`manager.py` 632-690). ROUGE and BLEU, which follow, are in
`Verif.TextGen.Bleu`. -/
def computeAllGuided (ev : Evaluator σ) (qr : QueryResponse) : Run σ (List (String × Option Metric)) :=
  runAll [("AnswerCorrectness", computeAnswerCorrectness ev qr), ("AnswerRelevance", computeAnswerRelevance ev qr),
    ("Bias", computeBias ev qr), ("ContextPrecision", computeContextPrecision ev qr),
    ("ContextRecall", computeContextRecall ev qr), ("ContextRelevance", computeContextRelevance ev qr),
    ("Faithfulness", computeFaithfulness ev qr), ("Hallucination", computeHallucination ev qr),
    ("SummaryCoherence", computeSummaryCoherence ev qr), ("Toxicity", computeToxicity ev qr)]

/-! ## `llm/integrations.py` -/

/-- The parts of an OpenAI reply that are read (`integrations.py` 118-130): content, usage and finish reason of
the first choice. -/
structure ApiReply where
  content : Option String
  usage : Option (Nat × Nat)
  finish : String

/-- The token counters of `OpenAIWrapper` (`integrations.py` 89-91). -/
structure Tokens where
  prompt : Nat
  completion : Nat
  deriving DecidableEq, Repr

/-- `OpenAIWrapper.__call__` (`integrations.py` 93-141). The API either raises (the counters stay as they are) or
replies. The check of the messages (`_validate_messages`) is in `Verif.TextGen.Bleu`. -/
def openAiCall (t : Tokens) (api : Except PyErr ApiReply) : Except PyErr String × Tokens :=
  match api with
  | .error e => (.error e, t)
  | .ok r =>
    let t' : Tokens := match r.usage with
      | none => t
      | some (p, c) => ⟨t.prompt + p, t.completion + c⟩
    if r.finish = "length" then (.error .valueError, t')
    else if r.finish = "content_filter" then (.error .valueError, t')
    else (.ok (r.content.getD ""), t')

/-- A history of calls of one wrapper; the caller may catch what a call raises. -/
def openAiCalls (t : Tokens) : List (Except PyErr ApiReply) → Tokens
  | [] => t
  | a :: as => openAiCalls (openAiCall t a).2 as

/-- The content of a Mistral message (`integrations.py` 200-208): a text, something else, or missing. -/
inductive MistralContent where
  | missing
  | text (s : String)
  | chunks

/-- `MistralWrapper.__call__` (`integrations.py` 181-226); `missing` covers a missing reply, missing choices, a
missing message and a missing content. -/
def mistralCall (content : MistralContent) (finish : String) : Except PyErr String :=
  match content with
  | .missing => .ok ""
  | .text s => if finish = "length" then .error .valueError else .ok s
  | .chunks => if finish = "length" then .error .valueError else .error .typeError

end Verif.TextGen
