import Verif.TextGen.JsonProps
import Verif.TextGen.PromptProps
import Verif.TextGen.GuidedProps

/-!
# C80: a reply in the format of the prompt's own example

Every prompt but the one for summary coherence shows the LLM an example of a reply, the text from the first opening to the last
closing brace after the words "===== EXAMPLE ======". The LLM may put it into prose.
-/

namespace Verif.TextGen

variable {σ : Type}

/-! ## The allowed depth does not matter unless it is exceeded -/

/-- The error of a text that is nested too deeply. -/
def tooDeep : PyErr := .other "RecursionError"

theorem arrayItems_more {pv pv' : List Char → Except PyErr (Json × List Char)} (h : ∀ cs, pv cs ≠ .error tooDeep → pv' cs = pv cs)
    (n : Nat) (cs : List Char) (hn : arrayItems pv n cs ≠ .error tooDeep) : arrayItems pv' n cs = arrayItems pv n cs := by
  induction n generalizing cs with
  | zero => rfl
  | succ n ih =>
    rw [arrayItems] at hn
    rw [arrayItems, arrayItems]
    have h1 : pv cs ≠ .error tooDeep := by
      intro e; rw [e] at hn; exact hn rfl
    rw [h cs h1]
    cases h2 : pv cs with
    | error e => rfl
    | ok x =>
      obtain ⟨v, r⟩ := x
      rw [h2] at hn
      simp only at hn ⊢
      split
      · rfl
      · rename_i r' h3
        rw [h3] at hn
        simp only at hn
        rw [ih _ (by intro e; rw [e] at hn; exact hn rfl)]
      · rfl

theorem objectMembers_more {pv pv' : List Char → Except PyErr (Json × List Char)} (h : ∀ cs, pv cs ≠ .error tooDeep → pv' cs = pv cs)
    (n : Nat) (cs : List Char) (hn : objectMembers pv n cs ≠ .error tooDeep) : objectMembers pv' n cs = objectMembers pv n cs := by
  induction n generalizing cs with
  | zero => rfl
  | succ n ih =>
    rw [objectMembers.eq_def] at hn
    rw [objectMembers.eq_def, objectMembers.eq_def pv]
    simp only at hn ⊢
    split
    · rename_i r
      simp only at hn
      cases h1 : stringUnits r with
      | none => rfl
      | some x =>
        obtain ⟨us, r1⟩ := x
        rw [h1] at hn
        simp only at hn ⊢
        split
        · rename_i r2 h2
          rw [h2] at hn
          simp only at hn
          have h3 : pv (skipWs r2) ≠ .error tooDeep := by
            intro e; rw [e] at hn; exact hn rfl
          rw [h _ h3]
          cases h4 : pv (skipWs r2) with
          | error e => rfl
          | ok y =>
            obtain ⟨v, r3⟩ := y
            rw [h4] at hn
            simp only at hn ⊢
            split
            · rfl
            · rename_i r4 h5
              rw [h5] at hn
              simp only at hn
              rw [ih _ (by intro e; rw [e] at hn; exact hn rfl)]
            · rfl
        · rfl
    · rfl

theorem value_more (d : Nat) : ∀ cs, value d cs ≠ .error tooDeep → value (d + 1) cs = value d cs := by
  induction d with
  | zero =>
    intro cs h
    rw [value.eq_def] at h
    rw [value.eq_def, value.eq_def 0]
    split
    · exact absurd rfl h
    · exact absurd rfl h
    · rfl
  | succ d ih =>
    intro cs h
    rw [value.eq_def] at h
    rw [value.eq_def, value.eq_def (d + 1)]
    split
    · rename_i r
      simp only at h ⊢
      split
      · rfl
      · rename_i hx
        have h1 : arrayItems (value d) (skipWs r).length (skipWs r) ≠ .error tooDeep := by
          intro e
          split at h
          · rename_i r' h2; exact hx r' h2
          · rw [e] at h; exact h rfl
        rw [arrayItems_more ih _ _ h1]
    · rename_i r
      simp only at h ⊢
      split
      · rfl
      · rename_i hx
        have h1 : objectMembers (value d) (skipWs r).length (skipWs r) ≠ .error tooDeep := by
          intro e
          split at h
          · rename_i r' h2; exact hx r' h2
          · rw [e] at h; exact h rfl
        rw [objectMembers_more ih _ _ h1]
    · rfl

theorem loads_more {d d' : Nat} (hd : d ≤ d') (cs : List Char) (h : loads d cs ≠ .error tooDeep) : loads d' cs = loads d cs := by
  induction hd with
  | refl => rfl
  | @step m hm ih =>
    rw [← ih]
    have h1 : loads m cs ≠ .error tooDeep := by rw [ih]; exact h
    rw [loads] at h1
    rw [loads, loads, value_more m (skipWs cs) (by intro e; rw [e] at h1; exact h1 rfl)]

/-! ## Reading the example of a template -/

/-- The text after the first occurrence of a mark. -/
def after (mark : List Char) : List Char → List Char
  | [] => []
  | c :: cs => if mark.isPrefixOf (c :: cs) then (c :: cs).drop mark.length else after mark cs

/-- The example of a reply that a template shows. -/
def exampleOf (template : List Char) : Option (List Char) := searchBraces (after "===== EXAMPLE ======".toList template)

/-- What `_generate` makes of the example in a template. -/
def readExample (template : List Char) (keys : List String)
    (val : Dict → String → Option (List String) → Option Nat → Except PyErr Unit) (al : Option (List String)) (n : Option Nat) :
    Except PyErr Dict :=
  match exampleOf template with
  | none => .error (.other "no example")
  | some json => match loads 4 json with
    | .error e => .error e
    | .ok d => match validateKeys val d al n keys with
      | .error e => .error e
      | .ok _ => .ok d

/-- The reply is the example of the template with prose around it; the prose has no brace that could be mistaken for one of the
example. -/
def LikeExample (template : String) (reply : List Char) : Prop :=
  ∃ pre json post, exampleOf template.toList = some json ∧ reply = pre ++ json ++ post ∧ '{' ∉ pre ∧ '}' ∉ post

theorem generate_example (w : World σ) (depth : Nat) (hw : w.loads = loads depth) (hd : 4 ≤ depth) (template : String) (m : Message)
    (keys : List String) (val : Dict → String → Option (List String) → Option Nat → Except PyErr Unit) (al : Option (List String))
    (n : Option Nat) (s s' : σ) (reply : List Char) (hr : LikeExample template reply) (hc : w.call s m = (.ok reply, s'))
    (hx : readExample template.toList keys val al n ≠ .error tooDeep) :
    generate w m keys val al n s = (readExample template.toList keys val al n, s') := by
  obtain ⟨pre, json, post, h1, rfl, h2, h3⟩ := hr
  have h4 : searchBraces json = some json := by
    obtain ⟨a, b, c, k1, k2, -, -⟩ := (C46_outermost _ json).1 h1
    exact (C46_outermost json json).2 ⟨[], b, [], by simp, k2, by simp, by simp⟩
  have h5 : trimAndLoadJson w (pre ++ json ++ post) = loads depth json := by
    rw [trimAndLoadJson, C46_prose pre json post h2 h3, h4, hw]
  rw [readExample, h1] at hx ⊢
  simp only at hx ⊢
  have h6 : loads 4 json ≠ .error tooDeep := by
    intro e; rw [e] at hx; exact hx rfl
  rw [loads_more hd json h6] at h5
  unfold generate
  simp only [bind, World.ask, hc, h5, Run.lift, pure]
  cases loads 4 json with
  | error e => rfl
  | ok d =>
    simp only
    cases validateKeys val d al n keys with
    | error e => rfl
    | ok u => rfl

/-- The example is accepted. -/
def accepted (x : Except PyErr Dict) : Bool := match x with | .ok _ => true | .error _ => false

/-- The example is an invalid response. -/
def refused (x : Except PyErr Dict) : Bool := match x with | .ok _ => false | .error e => e == .invalid

theorem accepted_iff {x : Except PyErr Dict} (h : accepted x = true) : ∃ d, x = .ok d := by
  cases x with
  | ok d => exact ⟨d, rfl⟩
  | error e => simp [accepted] at h

theorem refused_iff {x : Except PyErr Dict} (h : refused x = true) : x = .error .invalid := by
  cases x with
  | ok d => simp [refused] at h
  | error e => simp [refused] at h; rw [h]

theorem example_strings (w : World σ) (depth : Nat) (hw : w.loads = loads depth) (hd : 4 ≤ depth) (template : String) (m : Message)
    (key : String) (s s' : σ) (reply : List Char) (hr : LikeExample template reply) (hc : w.call s m = (.ok reply, s'))
    (hx : accepted (readExample template.toList [key] validateStatements none none) = true) :
    ∃ ss, (do let d ← generate w m [key] validateStatements
              Run.lift (stringsAt d key) : Run σ (List String)) s = (.ok ss, s') := by
  obtain ⟨d, h1⟩ := accepted_iff hx
  have h2 := generate_example w depth hw hd template m [key] validateStatements none none s s' reply hr hc (by rw [h1]; simp)
  rw [h1] at h2
  obtain ⟨h3, h4⟩ := (generate_ok ..).1 h2
  have h5 : validateStatements d key none none = .ok () := by
    simp only [validateKeys] at h4
    cases h6 : validateStatements d key none none with
    | ok u => rfl
    | error e => rw [h6] at h4; simp at h4
  obtain ⟨ss, h6⟩ := (statementsOk_iff d key).1 h5
  exact ⟨ss, (generateStrings_ok ..).2 ⟨d, h3, h6⟩⟩

theorem example_verdicts (w : World σ) (depth : Nat) (hw : w.loads = loads depth) (hd : 4 ≤ depth) (template : String) (m : Message)
    (al : List String) (n : Nat) (s s' : σ) (reply : List Char) (hr : LikeExample template reply) (hc : w.call s m = (.ok reply, s'))
    (hx : accepted (readExample template.toList ["verdicts"] validateVerdicts (some al) (some n)) = true) :
    ∃ xs, generateVerdicts w m al n s = (.ok xs, s') ∧ xs.length = n := by
  obtain ⟨d, h1⟩ := accepted_iff hx
  have h2 := generate_example w depth hw hd template m _ validateVerdicts (some al) (some n) s s' reply hr hc (by rw [h1]; simp)
  rw [h1] at h2
  obtain ⟨h3, h4⟩ := (generate_ok ..).1 h2
  have h5 : validateVerdicts d "verdicts" (some al) (some n) = .ok () := by
    simp only [validateKeys] at h4
    cases h6 : validateVerdicts d "verdicts" (some al) (some n) with
    | ok u => rfl
    | error e => rw [h6] at h4; simp at h4
  obtain ⟨xs, h6, h7, h8⟩ := (C44_verdicts d "verdicts" al n).1 h5
  obtain ⟨vs, h9⟩ := (entries al xs).1 h8
  exact ⟨xs, (generateVerdicts_ok ..).2 ⟨d, vs, h3, h6, h9, by rw [← h9.length_eq]; exact h7⟩, h7⟩

theorem example_refused (w : World σ) (depth : Nat) (hw : w.loads = loads depth) (hd : 4 ≤ depth) (template : String) (m : Message)
    (al : List String) (n : Nat) (s s' : σ) (reply : List Char) (hr : LikeExample template reply) (hc : w.call s m = (.ok reply, s'))
    (hx : refused (readExample template.toList ["verdicts"] validateVerdicts (some al) (some n)) = true) :
    generateVerdicts w m al n s = (.error .invalid, s') := by
  have h1 := refused_iff hx
  have h2 := generate_example w depth hw hd template m _ validateVerdicts (some al) (some n) s s' reply hr hc (by rw [h1]; simp [tooDeep])
  rw [h1] at h2
  rw [generateVerdicts, bind_error]
  exact Or.inl h2

/-- The example for answer correctness, with the numbers of statements it assigns. -/
def readCounts (template : List Char) : Option (Nat × Nat × Nat) :=
  match readExample template ["TP", "FP", "FN"] validateStatements none none with
  | .error _ => none
  | .ok d => match stringsAt d "TP", stringsAt d "FP", stringsAt d "FN" with
    | .ok tp, .ok fp, .ok fn => some (tp.length, fp.length, fn.length)
    | _, _, _ => none

theorem example_correctness (w : World σ) (depth : Nat) (hw : w.loads = loads depth) (hd : 4 ≤ depth) (template : String)
    (sys query : String) (preds gts : List String) (s s' : σ) (reply : List Char) (hr : LikeExample template reply)
    (hc : w.call s ⟨sys, .answerCorrectness query preds gts⟩ = (.ok reply, s')) {a b c : Nat}
    (hx : readCounts template.toList = some (a, b, c)) (hp : preds.length = a + b) (hg : c ≤ gts.length) :
    ∃ r, generateAnswerCorrectnessVerdicts w sys query preds gts s = (.ok r, s') := by
  rw [readCounts] at hx
  cases h1 : readExample template.toList ["TP", "FP", "FN"] validateStatements none none with
  | error e => rw [h1] at hx; simp at hx
  | ok d =>
    have h2 := generate_example w depth hw hd template _ _ validateStatements none none s s' reply hr hc (by rw [h1]; simp)
    rw [h1] at h2 hx
    simp only at hx
    split at hx
    · rename_i tp fp fn k1 k2 k3
      simp only [Option.some.injEq, Prod.mk.injEq] at hx
      obtain ⟨rfl, rfl, rfl⟩ := hx
      refine ⟨(tp, fp, fn), ?_⟩
      rw [generateAnswerCorrectnessVerdicts, bind_ok]
      refine ⟨d, s', h2, ?_⟩
      rw [k1, k2, k3, bind_ok]
      refine ⟨tp, s', by simp [lift_ok], ?_⟩
      rw [bind_ok]
      refine ⟨fp, s', by simp [lift_ok], ?_⟩
      rw [if_neg (by omega), bind_ok]
      refine ⟨fn, s', by simp [lift_ok], ?_⟩
      rw [if_neg (by omega)]
      rfl
    · simp at hx

/-- The example is no JSON text. -/
def notJson (template : List Char) : Bool :=
  match exampleOf template with
  | none => false
  | some json => match loads 4 json with
    | .ok _ => false
    | .error e => e == .invalid

theorem refused_of_notJson {template : List Char} (h : notJson template = true) (keys : List String)
    (val : Dict → String → Option (List String) → Option Nat → Except PyErr Unit) (al : Option (List String)) (n : Option Nat) :
    refused (readExample template keys val al n) = true := by
  unfold notJson at h
  unfold readExample
  cases h1 : exampleOf template with
  | none => rw [h1] at h; simp at h
  | some json =>
    rw [h1] at h
    simp only at h ⊢
    cases h2 : loads 4 json with
    | ok d => rw [h2] at h; simp at h
    | error e => rw [h2] at h; simpa [refused] using h

/-! ## The examples -/

set_option maxRecDepth 100000 in
theorem claims_example : accepted (readExample claimsText.toList ["claims"] validateStatements none none) = true := by
  unfold claimsText
  exact viaChars (fun l => accepted (readExample l ["claims"] validateStatements none none) = true) (by decide +kernel)

set_option maxRecDepth 100000 in
theorem opinions_example : accepted (readExample opinionsText.toList ["opinions"] validateStatements none none) = true := by
  unfold opinionsText
  exact viaChars (fun l => accepted (readExample l ["opinions"] validateStatements none none) = true) (by decide +kernel)

set_option maxRecDepth 100000 in
theorem statements_example : accepted (readExample statementsText.toList ["statements"] validateStatements none none) = true := by
  unfold statementsText
  exact viaChars (fun l => accepted (readExample l ["statements"] validateStatements none none) = true) (by decide +kernel)

set_option maxRecDepth 100000 in
theorem answerCorrectness_example : readCounts answerCorrectnessText.toList = some (1, 1, 1) := by
  unfold answerCorrectnessText
  exact viaChars (fun l => readCounts l = some (1, 1, 1)) (by decide +kernel)

set_option maxRecDepth 100000 in
theorem answerRelevance_example : accepted (readExample answerRelevanceText.toList ["verdicts"] validateVerdicts (some ["yes", "no", "idk"]) (some 4)) = true := by
  unfold answerRelevanceText
  exact viaChars (fun l => accepted (readExample l ["verdicts"] validateVerdicts (some ["yes", "no", "idk"]) (some 4)) = true) (by decide +kernel)

set_option maxRecDepth 100000 in
theorem hallucination_example : accepted (readExample hallucinationText.toList ["verdicts"] validateVerdicts (some ["yes", "no"]) (some 3)) = true := by
  unfold hallucinationText
  exact viaChars (fun l => accepted (readExample l ["verdicts"] validateVerdicts (some ["yes", "no"]) (some 3)) = true) (by decide +kernel)

set_option maxRecDepth 100000 in
theorem toxicity_example : accepted (readExample toxicityText.toList ["verdicts"] validateVerdicts (some ["yes", "no"]) (some 3)) = true := by
  unfold toxicityText
  exact viaChars (fun l => accepted (readExample l ["verdicts"] validateVerdicts (some ["yes", "no"]) (some 3)) = true) (by decide +kernel)

set_option maxRecDepth 100000 in
theorem contextPrecision_example : refused (readExample contextPrecisionText.toList ["verdicts"] validateVerdicts (some ["yes", "no"]) (some 3)) = true := by
  unfold contextPrecisionText
  exact viaChars (fun l => refused (readExample l ["verdicts"] validateVerdicts (some ["yes", "no"]) (some 3)) = true) (by decide +kernel)

set_option maxRecDepth 100000 in
theorem contextRecall_example : refused (readExample contextRecallText.toList ["verdicts"] validateVerdicts (some ["yes", "no"]) (some 4)) = true := by
  unfold contextRecallText
  exact viaChars (fun l => refused (readExample l ["verdicts"] validateVerdicts (some ["yes", "no"]) (some 4)) = true) (by decide +kernel)

set_option maxRecDepth 100000 in
theorem bias_example : notJson biasText.toList = true := by
  unfold biasText
  exact viaChars (fun l => notJson l = true) (by decide +kernel)

set_option maxRecDepth 100000 in
theorem contextRelevance_example : notJson contextRelevanceText.toList = true := by
  unfold contextRelevanceText
  exact viaChars (fun l => notJson l = true) (by decide +kernel)

set_option maxRecDepth 100000 in
theorem faithfulness_example : notJson faithfulnessText.toList = true := by
  unfold faithfulnessText
  exact viaChars (fun l => notJson l = true) (by decide +kernel)

/-! ## C80 -/

/-- The full property: whenever the LLM answers with the example that the prompt shows, in prose or not, and the number of inputs is
the one in the example, the reply is accepted. It is proved here for seven of the twelve prompts with an example; the other five are
in `C80_not_json_violation` and `C80_key_violation`. Claims, opinions and statements are accepted whatever the input. -/
theorem C80_strings_partial (w : World σ) (depth : Nat) (hw : w.loads = loads depth) (hd : 4 ≤ depth) (sys text : String) (s s' : σ)
    (reply : List Char) :
    (LikeExample claimsText reply → w.call s ⟨sys, .claims text⟩ = (.ok reply, s') →
      ∃ ss, generateClaims w sys text s = (.ok ss, s')) ∧
    (LikeExample opinionsText reply → w.call s ⟨sys, .opinions text⟩ = (.ok reply, s') →
      ∃ ss, generateOpinions w sys text s = (.ok ss, s')) ∧
    (LikeExample statementsText reply → w.call s ⟨sys, .statements text⟩ = (.ok reply, s') →
      ∃ ss, generateStatements w sys text s = (.ok ss, s')) :=
  ⟨fun h hc => example_strings w depth hw hd _ _ _ s s' reply h hc claims_example,
    fun h hc => example_strings w depth hw hd _ _ _ s s' reply h hc opinions_example,
    fun h hc => example_strings w depth hw hd _ _ _ s s' reply h hc statements_example⟩

/-- C80 for answer correctness; the example is about two predicted statements and assigns one ground truth statement. -/
theorem C80_correctness_partial (w : World σ) (depth : Nat) (hw : w.loads = loads depth) (hd : 4 ≤ depth) (sys query : String)
    (preds gts : List String) (hp : preds.length = 2) (hg : 1 ≤ gts.length) (s s' : σ) (reply : List Char)
    (h : LikeExample answerCorrectnessText reply) (hc : w.call s ⟨sys, .answerCorrectness query preds gts⟩ = (.ok reply, s')) :
    ∃ r, generateAnswerCorrectnessVerdicts w sys query preds gts s = (.ok r, s') :=
  example_correctness w depth hw hd _ sys query preds gts s s' reply h hc answerCorrectness_example (by omega) hg

/-- C80 for answer relevance, hallucination and toxicity. -/
theorem C80_verdicts_partial (w : World σ) (depth : Nat) (hw : w.loads = loads depth) (hd : 4 ≤ depth) (sys text : String)
    (xs : List String) (s s' : σ) (reply : List Char) :
    (LikeExample answerRelevanceText reply → xs.length = 4 → w.call s ⟨sys, .answerRelevance text xs⟩ = (.ok reply, s') →
      ∃ vs, generateAnswerRelevanceVerdicts w sys text xs s = (.ok vs, s') ∧ vs.length = xs.length) ∧
    (LikeExample hallucinationText reply → xs.length = 3 → w.call s ⟨sys, .hallucination text xs⟩ = (.ok reply, s') →
      ∃ vs, generateHallucinationVerdicts w sys text xs s = (.ok vs, s') ∧ vs.length = xs.length) ∧
    (LikeExample toxicityText reply → xs.length = 3 → w.call s ⟨sys, .toxicity xs⟩ = (.ok reply, s') →
      ∃ vs, generateToxicityVerdicts w sys xs s = (.ok vs, s') ∧ vs.length = xs.length) :=
  ⟨fun h hl hc => example_verdicts w depth hw hd _ _ _ _ s s' reply h hc (hl ▸ answerRelevance_example),
    fun h hl hc => example_verdicts w depth hw hd _ _ _ _ s s' reply h hc (hl ▸ hallucination_example),
    fun h hl hc => example_verdicts w depth hw hd _ _ _ _ s s' reply h hc (hl ▸ toxicity_example)⟩

/-- C80 fails for bias, context relevance and faithfulness: the example of the prompt has a comma after the last verdict, which
`json.loads` does not take, so a reply that is written like the example is an invalid response, whatever the inputs are. -/
theorem C80_not_json_violation (w : World σ) (depth : Nat) (hw : w.loads = loads depth) (hd : 4 ≤ depth) (sys text : String)
    (xs ys : List String) (s s' : σ) (reply : List Char) :
    (LikeExample biasText reply → w.call s ⟨sys, .bias xs⟩ = (.ok reply, s') →
      generateBiasVerdicts w sys xs s = (.error .invalid, s')) ∧
    (LikeExample contextRelevanceText reply → w.call s ⟨sys, .contextRelevance text xs⟩ = (.ok reply, s') →
      generateContextRelevanceVerdicts w sys text xs s = (.error .invalid, s')) ∧
    (LikeExample faithfulnessText reply → w.call s ⟨sys, .faithfulness xs ys⟩ = (.ok reply, s') →
      generateFaithfulnessVerdicts w sys xs ys s = (.error .invalid, s')) :=
  ⟨fun h hc => example_refused w depth hw hd _ _ _ _ s s' reply h hc (refused_of_notJson bias_example _ _ _ _),
    fun h hc => example_refused w depth hw hd _ _ _ _ s s' reply h hc (refused_of_notJson contextRelevance_example _ _ _ _),
    fun h hc => example_refused w depth hw hd _ _ _ _ s s' reply h hc (refused_of_notJson faithfulness_example _ _ _ _)⟩

/-- C80 fails for context precision and context recall: from the second verdict on the example of the prompt has the key `reason`
where the validation wants `analysis`. -/
theorem C80_key_violation (w : World σ) (depth : Nat) (hw : w.loads = loads depth) (hd : 4 ≤ depth) (sys query gt : String)
    (xs ys : List String) (s s' : σ) (reply : List Char) :
    (LikeExample contextPrecisionText reply → xs.length = 3 → w.call s ⟨sys, .contextPrecision query xs gt⟩ = (.ok reply, s') →
      generateContextPrecisionVerdicts w sys query xs gt s = (.error .invalid, s')) ∧
    (LikeExample contextRecallText reply → ys.length = 4 → w.call s ⟨sys, .contextRecall xs ys⟩ = (.ok reply, s') →
      generateContextRecallVerdicts w sys xs ys s = (.error .invalid, s')) :=
  ⟨fun h hl hc => example_refused w depth hw hd _ _ _ _ s s' reply h hc (hl ▸ contextPrecision_example),
    fun h hl hc => example_refused w depth hw hd _ _ _ _ s s' reply h hc (hl ▸ contextRecall_example)⟩

/-- What this means for a user: if the LLM always answers the context relevance prompt in the way of the example, then the metric is
an `Error`, however often the request is repeated. -/
theorem C80_error_violation (w : World σ) (depth : Nat) (hw : w.loads = loads depth) (hd : 4 ≤ depth) (model sys : String)
    (retries : Nat) (qr : QueryResponse) (c : Context) (hq : qr.context = some c) (hne : c.prediction ≠ [])
    (h : ∀ s m, ∃ reply, LikeExample contextRelevanceText reply ∧ (w.call s m).1 = .ok reply) (s : σ) :
    (computeContextRelevance (evaluator w model sys retries) qr s).1 =
      .ok (some (.error "InvalidLLMResponseError" model retries)) := by
  have h1 : ∀ s1 : σ, ((do
      let c ← needContext qr
      let x ← calculateContextRelevance w sys qr.query c.prediction
      return Metric.value "ContextRelevance" x model retries : Run σ Metric) s1).1 = .error .invalid := by
    intro s1
    obtain ⟨reply, k1, k2⟩ := h s1 ⟨sys, .contextRelevance qr.query c.prediction⟩
    generalize k3 : w.call s1 ⟨sys, .contextRelevance qr.query c.prediction⟩ = x at k2
    obtain ⟨y, s2⟩ := x
    simp only at k2
    subst k2
    have k4 := (C80_not_json_violation w depth hw hd sys qr.query c.prediction [] s1 s2 reply).2.1 k1 k3
    have k5 : calculateContextRelevance w sys qr.query c.prediction s1 = (.error .invalid, s2) := by
      rw [calculateContextRelevance, if_neg (by simpa using hne), bind_error]
      exact Or.inl k4
    refine congrArg Prod.fst ((bind_error _ _ s1 s2 .invalid).2 (Or.inr ⟨c, s1, ?_, ?_⟩))
    · rw [needContext, hq]; rfl
    · exact (bind_error _ _ s1 s2 .invalid).2 (Or.inl k5)
  have h2 := C41_exhausted w model sys retries (fun w model => do
      let c ← needContext qr
      let x ← calculateContextRelevance w sys qr.query c.prediction
      return Metric.value "ContextRelevance" x model retries) s (fun j _ => h1 _)
  exact congrArg Prod.fst h2

/-- An LLM that answers every request with the example of the context relevance prompt. -/
def copyWorld : World Unit where
  call _ _ := (.ok ("Sure, here it is: ".toList ++ (exampleOf contextRelevanceText.toList).getD []), ())
  loads := loads 900
  digit := fun c => if c.isDigit then some (c.toNat - 48) else none

set_option maxRecDepth 100000 in
theorem contextRelevance_has : (exampleOf contextRelevanceText.toList).isSome = true := by
  unfold contextRelevanceText
  exact viaChars (fun l => (exampleOf l).isSome = true) (by decide +kernel)

theorem copyWorld_like : LikeExample contextRelevanceText
    ("Sure, here it is: ".toList ++ (exampleOf contextRelevanceText.toList).getD []) := by
  obtain ⟨json, h⟩ := Option.isSome_iff_exists.1 contextRelevance_has
  exact ⟨"Sure, here it is: ".toList, json, [], h, by rw [h]; simp, by decide, by simp⟩

/-- The hypotheses of `C80_error_violation` are met. -/
example : (computeContextRelevance (evaluator copyWorld "m" "sys" 2) ⟨"q", "r", some ⟨[], ["a", "b"]⟩⟩ ()).1 =
    .ok (some (.error "InvalidLLMResponseError" "m" 2)) :=
  C80_error_violation copyWorld 900 rfl (by omega) "m" "sys" 2 _ ⟨[], ["a", "b"]⟩ rfl (by simp)
    (fun _ _ => ⟨_, copyWorld_like, rfl⟩) ()

set_option maxRecDepth 100000 in
theorem claims_has : (exampleOf claimsText.toList).isSome = true := by
  unfold claimsText
  exact viaChars (fun l => (exampleOf l).isSome = true) (by decide +kernel)

/-- The hypotheses of `C80_strings_partial` are met. -/
example : ∃ reply, LikeExample claimsText reply := by
  obtain ⟨json, h⟩ := Option.isSome_iff_exists.1 claims_has
  exact ⟨json, [], json, [], h, by simp, by simp, by simp⟩

end Verif.TextGen
