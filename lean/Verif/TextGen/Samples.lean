import Verif.TextGen.Reported
import Verif.TextGen.CrashProps
import Verif.TextGen.BleuProps
import Verif.TextGen.Json

/-!
# Samples: worlds that meet the hypotheses of C41, C42, C43, C45, C47, C68, C71

Checks on single inputs, not proofs of properties: each shows that the hypotheses of the theorems named in its
comment can be met by a case that is not degenerate. The LLM is a list of replies, read with the modelled JSON
decoder.
-/

namespace Verif.TextGen

/-- An LLM that gives the replies of a list one after the other, then raises; with the modelled `json.loads`. -/
def script : World (List String) where
  call s _ := match s with
    | [] => (.error .valueError, [])
    | r :: rest => (.ok r.toList, rest)
  loads := loads 900
  digit := asciiDigit

/-- The evaluator around it, with two retries. -/
def scripted : Evaluator (List String) := evaluator script "m" "sys" (2 : Nat)

/-- A query with two ground truths and two contexts. -/
def sampleQuery : QueryResponse := ⟨"q", "r", some ⟨["g1", "g2"], ["p1", "p2"]⟩⟩

set_option maxRecDepth 100000

/-- `C42_answer_correctness`, `C71_answer_correctness`: the better of the two ground truths counts. -/
example : (computeAnswerCorrectness scripted sampleQuery
    ["{\"statements\": [\"a\", \"b\"]}", "{\"statements\": [\"c\"]}",
     "{\"TP\": [\"a\"], \"FP\": [\"b\"], \"FN\": []}", "{\"statements\": [\"d\"]}",
     "Sure: {\"TP\": [], \"FP\": [\"a\", \"b\"], \"FN\": [\"d\"]}"]).1
    = .ok (some (.value "AnswerCorrectness" (2 / 3) "m" 2)) := by decide +kernel

/-- `C42_answer_relevance`, `C71_answer_relevance`, `C41_first` with one failed attempt before. -/
example : (computeAnswerRelevance scripted sampleQuery
    ["no JSON here", "{\"statements\": [\"a\", \"b\"]}",
     "{\"verdicts\": [{\"verdict\": \"yes\", \"analysis\": \"\"}, {\"analysis\": \"x\", \"verdict\": \"idk\"}]}"]).1
    = .ok (some (.value "AnswerRelevance" (1 / 2) "m" 2)) := by decide +kernel

/-- `C42_bias`, `C71_bias`. -/
example : (computeBias scripted sampleQuery
    ["{\"opinions\": [\"a\", \"b\", \"c\"]}",
     "{\"verdicts\": [{\"verdict\": \"yes\", \"analysis\": \"\"}, {\"analysis\": \"x\", \"verdict\": \"no\"}, {\"analysis\": \"x\", \"verdict\": \"no\"}]}"]).1
    = .ok (some (.value "Bias" (1 / 3) "m" 2)) := by decide +kernel

/-- `C42_toxicity`, `C71_toxicity`: no opinions. -/
example : (computeToxicity scripted sampleQuery ["{\"opinions\": []}"]).1
    = .ok (some (.value "Toxicity" 0 "m" 2)) := by decide +kernel

/-- `C43_context_precision`, `C71_context_precision`: the second context is found by one of the ground truths. -/
example : (computeContextPrecision scripted sampleQuery
    ["{\"verdicts\": [{\"verdict\": \"no\", \"analysis\": \"\"}, {\"analysis\": \"x\", \"verdict\": \"no\"}]}",
     "{\"verdicts\": [{\"verdict\": \"no\", \"analysis\": \"\"}, {\"analysis\": \"x\", \"verdict\": \"yes\"}]}"]).1
    = .ok (some (.value "ContextPrecision" (1 / 2) "m" 2)) := by decide +kernel

/-- `C42_context_recall`, `C71_context_recall`. -/
example : (computeContextRecall scripted sampleQuery
    ["{\"statements\": [\"a\", \"b\"]}",
     "{\"verdicts\": [{\"verdict\": \"no\", \"analysis\": \"\"}, {\"analysis\": \"x\", \"verdict\": \"yes\"}]}",
     "{\"statements\": [\"c\"]}",
     "{\"verdicts\": [{\"verdict\": \"no\", \"analysis\": \"\"}]}"]).1
    = .ok (some (.value "ContextRecall" (1 / 2) "m" 2)) := by decide +kernel

/-- `C42_context_relevance`, `C71_context_relevance`. -/
example : (computeContextRelevance scripted sampleQuery
    ["{\"verdicts\": [{\"verdict\": \"yes\", \"analysis\": \"\"}, {\"analysis\": \"x\", \"verdict\": \"yes\"}]}"]).1
    = .ok (some (.value "ContextRelevance" 1 "m" 2)) := by decide +kernel

/-- `C42_faithfulness`, `C71_faithfulness`. -/
example : (computeFaithfulness scripted sampleQuery
    ["{\"claims\": [\"a\", \"b\", \"c\", \"d\"]}",
     "{\"verdicts\": [{\"verdict\": \"yes\", \"analysis\": \"\"}, {\"analysis\": \"x\", \"verdict\": \"yes\"}, {\"verdict\": \"no\", \"analysis\": \"\"}, {\"analysis\": \"x\", \"verdict\": \"yes\"}]}"]).1
    = .ok (some (.value "Faithfulness" (3 / 4) "m" 2)) := by decide +kernel

/-- `C42_hallucination`, `C71_hallucination`. -/
example : (computeHallucination scripted sampleQuery
    ["{\"verdicts\": [{\"verdict\": \"no\", \"analysis\": \"\"}, {\"analysis\": \"x\", \"verdict\": \"yes\"}]}"]).1
    = .ok (some (.value "Hallucination" (1 / 2) "m" 2)) := by decide +kernel

/-- `C42_summary_coherence`, `C71_summary_coherence`. -/
example : (computeSummaryCoherence scripted sampleQuery ["Score: 5"]).1
    = .ok (some (.value "SummaryCoherence" 5 "m" 2)) := by decide +kernel

/-- `C41_exhausted`, `C41_error_iff`: three replies that are not accepted, then an error metric; a fourth one is
not asked for. -/
example : computeContextRelevance scripted sampleQuery ["?", "{", "{\"verdicts\": []}", "unused"]
    = (.ok (some (.error "InvalidLLMResponseError" "m" 2)), ["unused"]) := by decide +kernel

/-- `C41_cases`, third case: an error of the client ends the attempts. -/
example : computeContextRelevance scripted sampleQuery ["?"] = (.error .valueError, []) := by decide +kernel

/-! ## C45, C47: replies that make the metrics raise -/

/-- The reply whose verdict is a list. -/
def listVerdict : String := "{\"verdicts\": [{\"verdict\": [], \"analysis\": \"\"}]}"

/-- `C45_unhashable_violation`: a world that meets its hypotheses, in which bias raises at the first attempt. -/
example : computeBias scripted ⟨"q", "r", none⟩ ["{\"opinions\": [\"a\"]}", listVerdict, "unused"]
    = (.error .typeError, ["unused"]) := by decide +kernel

/-- A number of 4301 digits. -/
def manyNines : List Char := List.replicate 4301 '9'

theorem manyNines_run : IsRun asciiDigit manyNines [] :=
  ⟨by simp [manyNines], fun c hc => by rw [List.eq_of_mem_replicate hc]; decide, by simp⟩

theorem asciiDigit_ok : DigitsOk asciiDigit := by unfold DigitsOk; decide

/-- `C47_long_violation` -/
example : findFirstSignedInteger asciiDigit ("Score: ".toList ++ signChars true ++ manyNines ++ []) = .error .valueError :=
  C47_long_violation asciiDigit asciiDigit_ok _ _ _ true manyNines_run (by decide) (by simp) (by simp [manyNines])

/-- An LLM that always gives this number. -/
def ninesWorld : World Unit where
  call _ _ := (.ok manyNines, ())
  loads := loads 900
  digit := asciiDigit

/-- `C45_digits_violation` -/
example : (computeSummaryCoherence (evaluator ninesWorld "m" "" 3) ⟨"q", "r", none⟩ ()).1 = .error .valueError :=
  C45_digits_violation ninesWorld asciiDigit_ok "m" "" 3 _ () () manyNines manyNines_run (by simp [manyNines]) rfl

/-! ## C68: tokens -/

/-- `C68_word` -/
example : tokenize ascii ("Hello".toList ++ ", you".toList) = "Hello".toList :: tokenize ascii ", you".toList :=
  C68_word _ _ (by decide) (by decide) (by intro x hx; cases hx; decide)

/-- `C68_price` -/
example : tokenize ascii ('$' :: ("25".toList ++ "x".toList)) = "$25".toList :: tokenize ascii "x".toList :=
  C68_price (by decide) _ _ (by decide) (by decide) (by intro x hx; cases hx; decide)

/-- `C68_punctuation` -/
example : tokenize ascii ('(' :: ("cheap),".toList ++ " e.g.".toList)) = "(cheap),".toList :: tokenize ascii " e.g.".toList :=
  C68_punctuation _ _ _ (by decide) (by decide) (by simp) (by decide) (by intro x hx; cases hx; decide)

/-- `C68_layout` -/
example : tokenize ascii (" ".toList ++ ([("a b".toList, ". ".toList), ("c".toList, "...".toList)].flatMap (fun q => q.1 ++ q.2)) ++ "d".toList)
    = ["a b".toList, "c".toList, "d".toList].flatMap (tokenize ascii) :=
  C68_layout ascii_ok _ (by decide) _ (by decide) _

end Verif.TextGen
