import Verif.TextGen.Model
import Verif.Shared.Dict

/-!
# Text comparison metrics, `compute_all` and the check of messages
(`text_generation/computation.py` 530-611, `manager.py` 553-697, `llm/integrations.py` 5-33)
-/

namespace Verif.TextGen

/-! ## BLEU -/

/-- The character classes `\w`, `\d`, `\s` of the regular expression engine (Unicode tables). -/
structure CharClasses where
  word : Char → Bool
  digit : Char → Bool
  space : Char → Bool

/-- Which characters continue the token that starts with `c` when `cs` follows, by the first alternative of
`\w+|\$[\d]+|[^\s\.]+` that matches (`computation.py` 594-596); `none` when none matches. -/
def tokenClass (cc : CharClasses) (c : Char) (cs : List Char) : Option (Char → Bool) :=
  if cc.word c then some cc.word
  else if c = '$' ∧ cs.takeWhile cc.digit ≠ [] then some cc.digit
  else if !cc.space c && c != '.' then some (fun x => !cc.space x && x != '.')
  else none

/-- `RegexpTokenizer(...).tokenize` (`computation.py` 598-599): `re.findall`, from left to right; a character where
no alternative matches is skipped. -/
def tokenize (cc : CharClasses) : List Char → List (List Char)
  | [] => []
  | c :: cs => match tokenClass cc c cs with
    | none => tokenize cc cs
    | some p => (c :: cs.takeWhile p) :: tokenize cc (cs.dropWhile p)
termination_by l => l.length
decreasing_by
  · simp
  · have := (List.dropWhile_sublist p (l := cs)).length_le
    simp; omega

/-- `nltk.translate.bleu_score.sentence_bleu`: any function of the tokens of the references, the tokens of the
prediction and the weights, which may raise. -/
abbrev BleuLib := List (List (List Char)) → List (List Char) → List Rat → Except PyErr Rat

/-- `calculate_sentence_bleu` (`computation.py` 570-611). -/
def calculateSentenceBleu (cc : CharClasses) (bleu : BleuLib) (prediction : List Char)
    (references : List (List Char)) (weights : List Rat) : Except PyErr Rat :=
  if weights.length = 0 then .error .valueError
  else match bleu (references.map (tokenize cc)) (tokenize cc prediction) weights with
    | .error e => .error e
    | .ok r => .ok (if 1 / 10 ^ 9 ≤ r then r else 0)

/-- `Metric.bleu` (`metric.py` 126-148): value and weights. -/
structure BleuMetric where
  value : Rat
  weights : List Rat
  deriving DecidableEq

/-- `compute_sentence_bleu` (`manager.py` 602-630). -/
def computeSentenceBleu (cc : CharClasses) (bleu : BleuLib) (qr : QueryResponse) (weights : List Rat) :
    Except PyErr BleuMetric :=
  match qr.context with
  | none => .error .valueError
  | some c => match calculateSentenceBleu cc bleu qr.response.toList (c.groundtruth.map String.toList) weights with
    | .error e => .error e
    | .ok x => .ok ⟨x, weights⟩

/-! ## ROUGE -/

/-- `rouge.compute(...)` of the `evaluate` library without aggregation: for a rouge type the score of the single
prediction, or the library fails or returns `None`. A type it does not know raises. -/
abbrev RougeLib := String → List String → List String → Bool → Except PyErr (Option (String → Rat))

/-- `calculate_rouge_scores` (`computation.py` 530-567): a dictionary from type to score. -/
def calculateRougeScores (rouge : RougeLib) (prediction : String) (references types : List String) (stem : Bool) :
    Except PyErr (List (String × Rat)) :=
  match rouge prediction references types stem with
  | .error e => .error e
  | .ok none => .ok []
  | .ok (some f) => .ok (Shared.dictOf (types.map (fun t => (t, max (f t) 0))))

/-- `Metric.rouge` (`metric.py` 303-331): value, type and stemmer flag. -/
structure RougeMetric where
  value : Rat
  rougeType : String
  useStemmer : Bool
  deriving DecidableEq

/-- `compute_rouge` (`manager.py` 553-600). -/
def computeRouge (rouge : RougeLib) (qr : QueryResponse) (types : List String) (stem : Bool) :
    Except PyErr (List RougeMetric) :=
  match qr.context with
  | none => .error .valueError
  | some c => match calculateRougeScores rouge qr.response c.groundtruth types stem with
    | .error e => .error e
    | .ok d => .ok (d.map (fun kv => ⟨kv.2, kv.1, stem⟩))

/-! ## `compute_all` -/

/-- The dictionary that `compute_all` returns (`manager.py` 664-697). -/
structure AllMetrics where
  guided : List (String × Option Metric)
  rouge : List RougeMetric
  bleu : BleuMetric

/-- `compute_all` (`manager.py` 632-697). -/
def computeAll {σ : Type} (ev : Evaluator σ) (cc : CharClasses) (bleu : BleuLib) (rouge : RougeLib) (qr : QueryResponse)
    (weights : List Rat) (types : List String) (stem : Bool) : Run σ AllMetrics := do
  let g ← computeAllGuided ev qr
  let r ← Run.lift (computeRouge rouge qr types stem)
  let b ← Run.lift (computeSentenceBleu cc bleu qr weights)
  return ⟨g, r, b⟩

/-! ## `_validate_messages` -/

/-- A Python value as far as the check looks at it. -/
inductive PyVal where
  | list (xs : List PyVal)
  | dict (kvs : List (String × PyVal))
  | str (s : String)
  | other

/-- `isinstance(v, dict)` -/
def PyVal.isDict : PyVal → Bool
  | .dict _ => true
  | _ => false

/-- `isinstance(v, str)` -/
def PyVal.isStr : PyVal → Bool
  | .str _ => true
  | _ => false

/-- `message[key]` of a dictionary, if there. -/
def PyVal.item (key : String) : PyVal → Option PyVal
  | .dict kvs => (kvs.find? (fun kv => kv.1 == key)).map (·.2)
  | _ => none

/-- `_validate_messages` (`integrations.py` 5-33). -/
def validateMessages (messages : PyVal) : Except PyErr Unit :=
  match messages with
  | .list ms =>
    if !ms.all PyVal.isDict then .error .typeError
    else if !ms.all (fun m => (m.item "role").isSome && (m.item "content").isSome) then .error .valueError
    else if !ms.all (fun m => ((m.item "role").map PyVal.isStr).getD false) then .error .typeError
    else if !ms.all (fun m => ((m.item "content").map PyVal.isStr).getD false) then .error .typeError
    else .ok ()
  | _ => .error .typeError

/-- `OpenAIWrapper.__call__` (`integrations.py` 93-141) with its check: the API is a stateful server. -/
def openAiChecked {σ : Type} (api : σ → PyVal → Except PyErr ApiReply × σ) (t : Tokens) (messages : PyVal) (s : σ) :
    Except PyErr String × Tokens × σ :=
  match validateMessages messages with
  | .error e => (.error e, t, s)
  | .ok _ =>
    let r := api s messages
    let o := openAiCall t r.1
    (o.1, o.2, r.2)

/-- `MistralWrapper.__call__` (`integrations.py` 181-226) with its check. -/
def mistralChecked {σ : Type} (api : σ → PyVal → Except PyErr (MistralContent × String) × σ) (messages : PyVal)
    (s : σ) : Except PyErr String × σ :=
  match validateMessages messages with
  | .error e => (.error e, s)
  | .ok _ => match api s messages with
    | (.error e, s') => (.error e, s')
    | (.ok r, s') => (mistralCall r.1 r.2, s')

/-- The messages that the package builds for an LLM call (e.g. `generation.py` 98-107); the user text is the
formatted instruction. -/
def packageMessages (system user : String) : PyVal :=
  .list [.dict [("role", .str "system"), ("content", .str system)],
    .dict [("role", .str "user"), ("content", .str user)]]

end Verif.TextGen
