import Verif.TextGen.GuidedProps

/-!
# C45: can an LLM reply make a guided metric crash?

It can: three kinds of replies do (`C45_*_violation`). Without them no reply can (`C45_*_partial`).
-/

namespace Verif.TextGen

variable {σ : Type} {α β : Type}

/-- `t` is the text between the outer braces of a reply that the LLM gives to some message. -/
def Replied (w : World σ) (t : List Char) : Prop := ∃ s m text s', w.call s m = (.ok text, s') ∧ searchBraces text = some t

/-- The client raises nothing but invalid-response errors, and neither does the JSON library on a reply; no reply has a list
or a dictionary as a verdict, and no reply has a number of more than 4300 digits in front. -/
structure Tame (w : World σ) : Prop where
  call : ∀ s m e s', w.call s m = (.error e, s') → e = .invalid
  loads : ∀ t e, Replied w t → w.loads t = .error e → e = .invalid
  verdicts : ∀ t d xs, Replied w t → w.loads t = .ok d → d.get "verdicts" = some (.arr xs) → ∀ v ∈ xs, ¬ Unhashable v
  digits : ∀ s m text s', w.call s m = (.ok text, s') → ∀ neg ds, searchInt w.digit text = some (neg, ds) →
    ds.length ≤ 4300

/-- No reply has an empty list of statements. -/
def HasStatements (w : World σ) : Prop := ∀ t d, Replied w t → w.loads t = .ok d → d.get "statements" ≠ some (.arr [])

/-- A computation raises nothing but invalid-response errors. -/
def OnlyInvalid (m : Run σ α) : Prop := ∀ s e s', m s = (.error e, s') → e = .invalid

theorem only_bind (m : Run σ α) (f : α → Run σ β) (h1 : OnlyInvalid m)
    (h2 : ∀ a s s1, m s = (.ok a, s1) → OnlyInvalid (f a)) : OnlyInvalid (m >>= f) := by
  intro s e s' h
  rcases (bind_error _ _ _ _ _).1 h with h | ⟨a, s1, h3, h4⟩
  · exact h1 s e s' h
  · exact h2 a s s1 h3 s1 e s' h4

theorem only_pure (a : α) : OnlyInvalid (pure a : Run σ α) := fun _ _ _ h => absurd h (pure_error _ _ _ _)

theorem only_raise : OnlyInvalid (Run.raise .invalid : Run σ α) := fun _ _ _ h => ((raise_error _ _ _ _).1 h).1.symm

theorem only_lift (x : Except PyErr α) (h : ∀ e, x = .error e → e = .invalid) : OnlyInvalid (Run.lift x : Run σ α) :=
  fun _ e _ h2 => h e ((lift_error _ _ _ _).1 h2).1

theorem only_ask (w : World σ) (ht : Tame w) (m : Message) : OnlyInvalid (w.ask m) :=
  fun s e s' h => ht.call s m e s' h

theorem only_ite (c : Prop) [Decidable c] (a b : Run σ α) (h1 : c → OnlyInvalid a) (h2 : ¬ c → OnlyInvalid b) :
    OnlyInvalid (if c then a else b) := by
  by_cases h : c
  · rw [if_pos h]; exact h1 h
  · rw [if_neg h]; exact h2 h

theorem only_generate (w : World σ) (ht : Tame w) (m : Message) (keys : List String)
    (val : Dict → String → Option (List String) → Option Nat → Except PyErr Unit) (al : Option (List String))
    (n : Option Nat)
    (hval : ∀ t d, Replied w t → w.loads t = .ok d → ∀ e, validateKeys val d al n keys = .error e → e = .invalid) :
    OnlyInvalid (generate w m keys val al n) := by
  unfold generate
  refine only_bind _ _ (only_ask w ht m) (fun text s s1 h1 => ?_)
  have htl : ∀ e, trimAndLoadJson w text = .error e → e = .invalid := by
    intro e he
    unfold trimAndLoadJson at he
    cases hb : searchBraces text with
    | none => rw [hb] at he; simpa using he.symm
    | some t => rw [hb] at he; exact ht.loads t e ⟨s, m, text, s1, h1, hb⟩ he
  refine only_bind _ _ (only_lift _ htl) (fun d s2 s3 h2 => ?_)
  refine only_bind _ _ (only_lift _ ?_) (fun _ _ _ _ => only_pure _)
  have h3 := ((lift_ok _ _ _ _).1 h2).1
  unfold trimAndLoadJson at h3
  cases hb : searchBraces text with
  | none => rw [hb] at h3; simp at h3
  | some t => rw [hb] at h3; exact hval t d ⟨s, m, text, s1, h1, hb⟩ h3

theorem statements_only (d : Dict) (key : String) (al : Option (List String)) (n : Option Nat) (e : PyErr)
    (h : validateStatements d key al n = .error e) : e = .invalid := by
  obtain ⟨h1, h2⟩ := C44_statements d key al n
  by_cases hs : StatementsOk d key al n
  · rw [h1 hs] at h; simp at h
  · rw [h2 hs] at h; simpa using h.symm

theorem keys_statements_only (d : Dict) (al : Option (List String)) (n : Option Nat) (keys : List String) (e : PyErr)
    (h : validateKeys validateStatements d al n keys = .error e) : e = .invalid := by
  induction keys with
  | nil => simp [validateKeys] at h
  | cons k ks ih =>
    simp only [validateKeys] at h
    cases hv : validateStatements d k al n with
    | ok u => rw [hv] at h; exact ih h
    | error e' =>
      rw [hv] at h
      simp only [Except.error.injEq] at h
      rw [← h]
      exact statements_only d k al n e' hv

theorem only_strings (w : World σ) (ht : Tame w) (m : Message) (key : String) :
    OnlyInvalid (do let d ← generate w m [key] validateStatements
                    Run.lift (stringsAt d key) : Run σ (List String)) := by
  refine only_bind _ _ (only_generate w ht m _ _ _ _ (fun t d _ _ e he => keys_statements_only d _ _ _ e he)) ?_
  intro d s s1 h
  refine only_lift _ (fun e he => ?_)
  obtain ⟨-, h2⟩ := (generate_ok ..).1 h
  have h3 : validateStatements d key none none = .ok () := by
    simp only [validateKeys] at h2
    cases h4 : validateStatements d key none none with
    | ok u => rfl
    | error e' => rw [h4] at h2; simp at h2
  obtain ⟨ss, h4⟩ := (statementsOk_iff d key).1 h3
  rw [stringsAt_has d key ss h4] at he
  simp at he

theorem only_generateVerdicts (w : World σ) (ht : Tame w) (m : Message) (al : List String) (n : Nat) :
    OnlyInvalid (generateVerdicts w m al n) := by
  unfold generateVerdicts
  have hk : ∀ d e, validateKeys validateVerdicts d (some al) (some n) ["verdicts"] = .error e →
      validateVerdicts d "verdicts" (some al) (some n) = .error e := by
    intro d e h
    simp only [validateKeys] at h
    cases hv : validateVerdicts d "verdicts" (some al) (some n) with
    | ok u => rw [hv] at h; simp at h
    | error e' => rw [hv] at h; simpa using h
  refine only_bind _ _ (only_generate w ht m _ _ _ _ ?_) ?_
  · intro t d hr hl e he
    have h1 := hk d e he
    have h2 := C44_rejects_partial d "verdicts" al n (by
      intro h3
      rw [(C44_verdicts d "verdicts" al n).2 h3] at h1
      simp at h1) (fun xs hx => ht.verdicts t d xs hr hl hx)
    rw [h2] at h1
    simpa using h1.symm
  · intro d s s1 h
    refine only_lift _ (fun e he => ?_)
    obtain ⟨-, h2⟩ := (generate_ok ..).1 h
    have h3 : validateVerdicts d "verdicts" (some al) (some n) = .ok () := by
      simp only [validateKeys] at h2
      cases h4 : validateVerdicts d "verdicts" (some al) (some n) with
      | ok u => rfl
      | error e' => rw [h4] at h2; simp at h2
    obtain ⟨xs, h4, -⟩ := (C44_verdicts d "verdicts" al n).1 h3
    simp [listAt, h4] at he

theorem only_share (w : World σ) (ht : Tame w) (m : Message) (al : List String) (n : Nat) (hn : n ≠ 0) :
    OnlyInvalid (do let v ← generateVerdicts w m al n
                    Run.lift (yesShare v) : Run σ Rat) := by
  refine only_bind _ _ (only_generateVerdicts w ht m al n) ?_
  intro xs s s1 h
  refine only_lift _ (fun e he => ?_)
  obtain ⟨d, vs, -, -, h2, h3⟩ := (generateVerdicts_ok ..).1 h
  rw [yesShare_entries al xs vs h2, if_neg (by intro hv; rw [hv] at h3; exact hn h3.symm)] at he
  simp at he

/-! ## The calculations -/

theorem only_bias (w : World σ) (ht : Tame w) (sys response : String) : OnlyInvalid (calculateBias w sys response) :=
  only_bind _ _ (only_strings w ht _ _) (fun _ _ _ _ =>
    only_ite _ _ _ (fun _ => only_pure _) (fun h => only_share w ht _ _ _ h))

theorem only_toxicity (w : World σ) (ht : Tame w) (sys response : String) :
    OnlyInvalid (calculateToxicity w sys response) :=
  only_bind _ _ (only_strings w ht _ _) (fun _ _ _ _ =>
    only_ite _ _ _ (fun _ => only_pure _) (fun h => only_share w ht _ _ _ h))

theorem only_answer_relevance (w : World σ) (ht : Tame w) (sys query response : String) :
    OnlyInvalid (calculateAnswerRelevance w sys query response) := by
  refine only_bind _ _ (only_strings w ht _ _) (fun stmts _ _ _ => only_bind _ _ (only_generateVerdicts w ht _ _ _) ?_)
  intro xs s s1 h
  refine only_ite _ _ _ (fun _ => only_pure _) (fun hx => only_lift _ (fun e he => ?_))
  obtain ⟨d, vs, -, -, h2, h3⟩ := (generateVerdicts_ok ..).1 h
  rw [yesShare_entries _ xs vs h2, if_neg (by
    intro hv
    rw [hv] at h2
    exact hx (by rw [h2.length_eq]; rfl))] at he
  simp at he

theorem only_context_relevance (w : World σ) (ht : Tame w) (sys query : String) (ctx : List String) :
    OnlyInvalid (calculateContextRelevance w sys query ctx) :=
  only_ite _ _ _ (fun _ => only_pure _) (fun h => only_share w ht _ _ _ h)

theorem only_faithfulness (w : World σ) (ht : Tame w) (sys response : String) (ctx : List String) :
    OnlyInvalid (calculateFaithfulness w sys response ctx) :=
  only_ite _ _ _ (fun _ => only_pure _) (fun _ => only_bind _ _ (only_strings w ht _ _) (fun _ _ _ _ =>
    only_ite _ _ _ (fun _ => only_pure _) (fun h => only_share w ht _ _ _ h)))

theorem only_hallucination (w : World σ) (ht : Tame w) (sys response : String) (ctx : List String) (hc : ctx ≠ []) :
    OnlyInvalid (calculateHallucination w sys response ctx) :=
  only_ite _ _ _ (fun h => absurd (List.length_eq_zero_iff.1 h) hc) (fun h => only_share w ht _ _ _ h)

theorem only_summary_coherence (w : World σ) (ht : Tame w) (sys text summary : String) :
    OnlyInvalid (calculateSummaryCoherence w sys text summary) := by
  refine only_bind _ _ (only_ask w ht _) (fun reply s s1 h1 => ?_)
  refine only_bind _ _ (only_lift _ (fun e he => ?_)) (fun r _ _ _ => ?_)
  · unfold findFirstSignedInteger at he
    cases hi : searchInt w.digit reply with
    | none => rw [hi] at he; simp at he
    | some nd =>
      obtain ⟨neg, ds⟩ := nd
      rw [hi] at he
      have := ht.digits s _ reply s1 h1 neg ds hi
      simp only at he
      rw [if_neg (by simp only [maxStrDigits]; omega)] at he
      simp at he
  · cases r with
    | none => exact only_raise
    | some n => exact only_ite _ _ _ (fun _ => only_raise) (fun _ => only_pure _)

theorem only_correctness_verdicts (w : World σ) (ht : Tame w) (sys query : String) (preds gts : List String) :
    OnlyInvalid (generateAnswerCorrectnessVerdicts w sys query preds gts) := by
  unfold generateAnswerCorrectnessVerdicts
  refine only_bind _ _ (only_generate w ht _ _ _ _ _ (fun t d _ _ e he => keys_statements_only d _ _ _ e he)) ?_
  intro d s s1 h
  obtain ⟨-, h2⟩ := (generate_ok ..).1 h
  have hkeys : (∃ a, HasStrings d "TP" a) ∧ (∃ a, HasStrings d "FP" a) ∧ (∃ a, HasStrings d "FN" a) := by
    rw [← statementsOk_iff, ← statementsOk_iff, ← statementsOk_iff]
    simp only [validateKeys] at h2
    revert h2
    cases h1 : validateStatements d "TP" none none <;> cases h2 : validateStatements d "FP" none none <;>
      cases h3 : validateStatements d "FN" none none <;> simp
  obtain ⟨⟨a, ha⟩, ⟨b, hb⟩, ⟨c, hc⟩⟩ := hkeys
  refine only_bind _ _ (only_lift _ (fun e he => ?_)) (fun tp _ _ _ => ?_)
  · rw [stringsAt_has _ _ _ ha] at he; simp at he
  refine only_bind _ _ (only_lift _ (fun e he => ?_)) (fun fp _ _ _ => ?_)
  · rw [stringsAt_has _ _ _ hb] at he; simp at he
  refine only_ite _ _ _ (fun _ => only_raise) (fun _ => ?_)
  refine only_bind _ _ (only_lift _ (fun e he => ?_)) (fun fn _ _ _ => ?_)
  · rw [stringsAt_has _ _ _ hc] at he; simp at he
  exact only_ite _ _ _ (fun _ => only_raise) (fun _ => only_pure _)

theorem only_answer_correctness (w : World σ) (ht : Tame w) (sys query response : String) (gts : List String) :
    OnlyInvalid (calculateAnswerCorrectness w sys query response gts) := by
  have hloop : ∀ preds, OnlyInvalid (answerCorrectnessLoop w sys query preds gts) := by
    intro preds
    induction gts with
    | nil => exact only_pure _
    | cons g gs ih =>
      exact only_bind _ _ (only_strings w ht _ _) (fun _ _ _ _ => only_bind _ _ (only_correctness_verdicts w ht _ _ _ _)
        (fun _ _ _ _ => only_bind _ _ ih (fun _ _ _ _ => only_pure _)))
  exact only_bind _ _ (only_strings w ht _ _) (fun preds _ _ _ => only_bind _ _ (hloop preds) (fun xs _ _ _ =>
    only_lift _ (fun e he => by simp [pyMax] at he)))

theorem only_context_precision (w : World σ) (ht : Tame w) (sys query : String) (ctx gts : List String) :
    OnlyInvalid (calculateContextPrecision w sys query ctx gts) := by
  have hloop : ∀ init : List Bool, init.length = ctx.length →
      OnlyInvalid (contextPrecisionLoop w sys query ctx gts init) := by
    induction gts with
    | nil => exact fun _ _ => only_pure _
    | cons g gs ih =>
      intro init hi
      refine only_bind _ _ (only_generateVerdicts w ht _ _ _) (fun xs s s1 h => ?_)
      obtain ⟨d, vs, -, -, h2, h3⟩ := (generateVerdicts_ok ..).1 h
      refine only_bind _ _ (only_lift _ (fun e he => ?_)) (fun fl _ _ hf => ?_)
      · rw [yesFlags_entries _ xs vs h2] at he; simp at he
      rw [lift_ok, yesFlags_entries _ xs vs h2, Except.ok.injEq] at hf
      obtain ⟨rfl, -⟩ := hf
      refine only_bind _ _ (only_lift _ (fun e he => ?_)) (fun agg _ _ ha => ?_)
      · rw [aggregate_ok _ _ (by simp; omega)] at he; simp at he
      rw [lift_ok, aggregate_ok _ _ (by simp; omega), Except.ok.injEq] at ha
      obtain ⟨rfl, -⟩ := ha
      exact ih _ (by simp; omega)
  exact only_ite _ _ _ (fun _ => only_pure _) (fun _ => only_ite _ _ _ (fun _ => only_pure _) (fun _ =>
    only_bind _ _ (hloop _ (by simp)) (fun _ _ _ _ => only_pure _)))

theorem only_context_recall (w : World σ) (ht : Tame w) (hs : HasStatements w) (sys : String) (ctx gts : List String) :
    OnlyInvalid (calculateContextRecall w sys ctx gts) := by
  have hloop : OnlyInvalid (contextRecallLoop w sys ctx gts) := by
    induction gts with
    | nil => exact only_pure _
    | cons g gs ih =>
      refine only_bind _ _ (only_strings w ht _ _) (fun stmts s s1 h => ?_)
      obtain ⟨d, ⟨text, t, k1, k2, h2⟩, h3⟩ := (generateStatements_ok ..).1 h
      have hn : stmts.length ≠ 0 := by
        intro h0
        rw [List.length_eq_zero_iff.1 h0] at h3
        exact hs t d ⟨_, _, _, _, k1, k2⟩ h2 h3
      intro s e s' h4
      rcases (bind_error _ _ _ _ _).1 h4 with h5 | ⟨v, s2, h5, h6⟩
      · exact only_generateVerdicts w ht _ _ _ s e s' h5
      · rcases (bind_error _ _ _ _ _).1 h6 with h7 | ⟨x, s3, h7, h8⟩
        · exact only_share w ht ⟨sys, .contextRecall ctx stmts⟩ ["yes", "no"] stmts.length hn s e s'
            ((bind_error _ _ _ _ _).2 (Or.inr ⟨v, s2, h5, h7⟩))
        · exact only_bind _ _ ih (fun _ _ _ _ => only_pure _) s3 e s' h8
  refine only_ite _ _ _ (fun _ => only_pure _) (fun _ => only_ite _ _ _ (fun _ => only_pure _) (fun h2 => ?_))
  refine only_bind _ _ hloop (fun xs s s1 h => only_lift _ (fun e he => ?_))
  cases xs with
  | cons x xs => simp [pyMax] at he
  | nil =>
    have := (recall_loop w sys ctx gts s s1 []).1 h
    cases this
    simp at h2

/-! ## The metrics -/

/-- The outcome of a guided metric is a metric. -/
def GivesMetric (m : Run σ (Option Metric)) : Prop := ∀ s, ∃ x, (m s).1 = .ok (some x)

theorem gives_of_only (w : World σ) (model sys : String) (retries : Nat) (fn : World σ → String → Run σ Metric)
    (h : OnlyInvalid (fn w model)) : GivesMetric (llmGuidedMetric (evaluator w model sys retries) fn) := by
  intro s
  rcases C41_cases (fn w model) s retries with hc | ⟨k, h1, h2, h3⟩
  · rw [C41_exhausted w model sys retries fn s hc]
    exact ⟨_, rfl⟩
  · rw [C41_first w model sys retries k fn s h1 h2 h3]
    cases h4 : outcome (fn w model) s k with
    | ok m => exact ⟨m, rfl⟩
    | error e =>
      exfalso
      apply h3
      rw [h4, h (before (fn w model) s k) e _ (Prod.ext h4 rfl)]

theorem only_needContext (qr : QueryResponse) (c : Context) (h : qr.context = some c) :
    OnlyInvalid (needContext qr : Run σ Context) := by
  intro s e s' h2
  simp only [needContext, h] at h2
  exact absurd h2 (pure_error _ _ _ _)

/-- C45, metrics without context (answer relevance, bias, toxicity, summary coherence): with a well-behaved JSON library
and client, and replies without the three fatal patterns, a metric comes out whatever the LLM says. -/
theorem C45_no_context_partial (w : World σ) (ht : Tame w) (model sys : String) (retries : Nat) (qr : QueryResponse) :
    GivesMetric (computeAnswerRelevance (evaluator w model sys retries) qr) ∧
    GivesMetric (computeBias (evaluator w model sys retries) qr) ∧
    GivesMetric (computeToxicity (evaluator w model sys retries) qr) ∧
    GivesMetric (computeSummaryCoherence (evaluator w model sys retries) qr) := by
  refine ⟨?_, ?_, ?_, ?_⟩
  · exact gives_of_only w model sys retries _ (only_bind _ _ (only_answer_relevance w ht _ _ _) (fun _ _ _ _ => only_pure _))
  · exact gives_of_only w model sys retries _ (only_bind _ _ (only_bias w ht _ _) (fun _ _ _ _ => only_pure _))
  · exact gives_of_only w model sys retries _ (only_bind _ _ (only_toxicity w ht _ _) (fun _ _ _ _ => only_pure _))
  · exact gives_of_only w model sys retries _ (only_bind _ _ (only_summary_coherence w ht _ _ _) (fun _ _ _ _ => only_pure _))

/-- C45, metrics with context: likewise if the context is given; hallucination also needs a predicted context, and
context recall needs the LLM to find a statement in every ground truth. -/
theorem C45_context_partial (w : World σ) (ht : Tame w) (model sys : String) (retries : Nat) (qr : QueryResponse)
    (c : Context) (hc : qr.context = some c) :
    GivesMetric (computeAnswerCorrectness (evaluator w model sys retries) qr) ∧
    GivesMetric (computeContextPrecision (evaluator w model sys retries) qr) ∧
    GivesMetric (computeContextRelevance (evaluator w model sys retries) qr) ∧
    GivesMetric (computeFaithfulness (evaluator w model sys retries) qr) ∧
    (c.prediction ≠ [] → GivesMetric (computeHallucination (evaluator w model sys retries) qr)) ∧
    (HasStatements w → GivesMetric (computeContextRecall (evaluator w model sys retries) qr)) := by
  have hget : ∀ (c' : Context) (s s1 : σ), (needContext qr : Run σ Context) s = (.ok c', s1) → c' = c := by
    intro c' s s1 h
    simp only [needContext, hc, pure_ok] at h
    exact h.1.symm
  refine ⟨?_, ?_, ?_, ?_, fun hp => ?_, fun hs => ?_⟩
  · exact gives_of_only w model sys retries _ (only_bind _ _ (only_needContext qr c hc) (fun _ _ _ _ =>
      only_bind _ _ (only_answer_correctness w ht _ _ _ _) (fun _ _ _ _ => only_pure _)))
  · exact gives_of_only w model sys retries _ (only_bind _ _ (only_needContext qr c hc) (fun _ _ _ _ =>
      only_bind _ _ (only_context_precision w ht _ _ _ _) (fun _ _ _ _ => only_pure _)))
  · exact gives_of_only w model sys retries _ (only_bind _ _ (only_needContext qr c hc) (fun _ _ _ _ =>
      only_bind _ _ (only_context_relevance w ht _ _ _) (fun _ _ _ _ => only_pure _)))
  · exact gives_of_only w model sys retries _ (only_bind _ _ (only_needContext qr c hc) (fun _ _ _ _ =>
      only_bind _ _ (only_faithfulness w ht _ _ _) (fun _ _ _ _ => only_pure _)))
  · exact gives_of_only w model sys retries _ (only_bind _ _ (only_needContext qr c hc) (fun c' s s1 h =>
      only_bind _ _ (only_hallucination w ht _ _ _ (by rw [hget c' s s1 h]; exact hp)) (fun _ _ _ _ => only_pure _)))
  · exact gives_of_only w model sys retries _ (only_bind _ _ (only_needContext qr c hc) (fun _ _ _ _ =>
      only_bind _ _ (only_context_recall w ht hs _ _ _) (fun _ _ _ _ => only_pure _)))

/-! ## Fatal replies -/

/-- An error other than an invalid response in the first attempt comes out of the wrapper, whatever the number of
retries. -/
theorem guided_raises (w : World σ) (model sys : String) (retries : Nat) (fn : World σ → String → Run σ Metric) (s s' : σ)
    (e : PyErr) (h : fn w model s = (.error e, s')) (he : e ≠ .invalid) :
    (llmGuidedMetric (evaluator w model sys retries) fn s).1 = .error e := by
  have ho : outcome (fn w model) s 0 = .error e := by rw [outcome, before, h]
  rw [C41_first w model sys retries 0 fn s (by omega) (by omega) (by rw [ho]; simpa using he), ho]
  rfl

/-- C45 is false: if the LLM finds no statement in the first ground truth, and consistently gives no verdict, then
context recall divides by zero. Both replies are valid, so no retry happens. -/
theorem C45_recall_violation (w : World σ) (model sys : String) (retries : Nat) (qr : QueryResponse) (c : Context)
    (hc : qr.context = some c) (p : String) (ps : List String) (g : String) (gs : List String)
    (hp : c.prediction = p :: ps) (hg : c.groundtruth = g :: gs) (s s1 s2 : σ) (d1 d2 : Dict)
    (h1 : Asks w s ⟨sys, .statements g⟩ d1 s1) (h2 : d1.get "statements" = some (.arr []))
    (h3 : Asks w s1 ⟨sys, .contextRecall (p :: ps) []⟩ d2 s2) (h4 : d2.get "verdicts" = some (.arr [])) :
    (computeContextRecall (evaluator w model sys retries) qr s).1 = .error .zeroDivision := by
  refine guided_raises w model sys retries _ s s2 .zeroDivision ?_ (by simp)
  rw [bind_error]
  refine Or.inr ⟨c, s, by simp [needContext, hc, pure], ?_⟩
  rw [bind_error]
  refine Or.inl ?_
  simp only [calculateContextRecall, hp, hg, List.length_cons, Nat.add_eq_zero_iff, one_ne_zero, and_false,
    or_self, if_false]
  rw [bind_error]
  refine Or.inl ?_
  rw [contextRecallLoop, bind_error]
  refine Or.inr ⟨[], s1, (generateStatements_ok ..).2 ⟨d1, h1, h2⟩, ?_⟩
  rw [bind_error]
  refine Or.inr ⟨[], s2, (generateVerdicts_ok ..).2 ⟨d2, [], h3, h4, .nil, rfl⟩, ?_⟩
  rw [bind_error]
  refine Or.inl ?_
  rw [lift_error]
  exact ⟨rfl, rfl⟩

/-- C45 is false: a verdict that is a list makes the validation raise a `TypeError`, here for the bias of a response
with one opinion. -/
theorem C45_unhashable_violation (w : World σ) (model sys : String) (retries : Nat) (qr : QueryResponse) (s s1 s2 : σ)
    (op : String) (d1 d2 : Dict) (x a : Json) (xs : List Json)
    (h1 : Asks w s ⟨sys, .opinions qr.response⟩ d1 s1) (h2 : HasStrings d1 "opinions" [op])
    (h3 : Asks w s1 ⟨sys, .bias [op]⟩ d2 s2)
    (h4 : d2.get "verdicts" = some (.arr [.obj [("verdict", x), ("analysis", a)]])) (hx : x = .arr xs) :
    (computeBias (evaluator w model sys retries) qr s).1 = .error .typeError := by
  refine guided_raises w model sys retries _ s s2 .typeError ?_ (by simp)
  rw [bind_error]
  refine Or.inl ?_
  rw [calculateBias, bind_error]
  refine Or.inr ⟨[op], s1, (generateOpinions_ok ..).2 ⟨d1, h1, h2⟩, ?_⟩
  rw [if_neg (by simp), bind_error]
  refine Or.inl ?_
  rw [generateBiasVerdicts, generateVerdicts, bind_error]
  refine Or.inl ?_
  obtain ⟨text, t, h5, h6, h7⟩ := h3
  rw [generate, bind_error]
  refine Or.inr ⟨text, s2, h5, ?_⟩
  rw [bind_error]
  refine Or.inr ⟨d2, s2, (lift_ok _ _ _ _).2 ⟨by rw [trimAndLoadJson, h6]; exact h7, rfl⟩, ?_⟩
  rw [bind_error]
  refine Or.inl ?_
  rw [lift_error]
  refine ⟨?_, rfl⟩
  subst hx
  simp only [validateKeys, validateVerdicts, h4]
  simp [validateEach, validateVerdict, Dict.get, memSet]

/-- C45 is false: a reply that starts with a number of more than 4300 digits makes summary coherence raise a
`ValueError`. -/
theorem C45_digits_violation (w : World σ) (hd : DigitsOk w.digit) (model sys : String) (retries : Nat)
    (qr : QueryResponse) (s s1 : σ) (ds : List Char) (hrun : IsRun w.digit ds []) (hlen : ds.length > 4300)
    (h1 : w.call s ⟨sys, .summaryCoherence qr.query qr.response⟩ = (.ok ds, s1)) :
    (computeSummaryCoherence (evaluator w model sys retries) qr s).1 = .error .valueError := by
  refine guided_raises w model sys retries _ s s1 .valueError ?_ (by simp)
  rw [bind_error]
  refine Or.inl ?_
  rw [calculateSummaryCoherence, generateSummaryCoherence, bind_error]
  refine Or.inr ⟨ds, s1, h1, ?_⟩
  rw [bind_error]
  refine Or.inl ?_
  rw [lift_error]
  refine ⟨?_, rfl⟩
  have := C47_long_violation w.digit hd [] ds [] false hrun (by simp) (by simp) hlen
  simpa [signChars] using this

/-- Outside of C45: without a context most metrics raise a `ValueError`, also with every number of retries; and
hallucination raises one for an empty predicted context. -/
theorem hallucination_empty (w : World σ) (model sys : String) (retries : Nat) (qr : QueryResponse) (c : Context)
    (hc : qr.context = some c) (hp : c.prediction = []) (s : σ) :
    (computeHallucination (evaluator w model sys retries) qr s).1 = .error .valueError := by
  refine guided_raises w model sys retries _ s s .valueError ?_ (by simp)
  rw [bind_error]
  refine Or.inr ⟨c, s, by simp [needContext, hc, pure], ?_⟩
  rw [bind_error]
  refine Or.inl ?_
  simp [calculateHallucination, hp, Run.raise]

/-! ## Samples -/

/-- A JSON library that knows two texts. -/
def sampleLoads (t : List Char) : Except PyErr Dict :=
  if t = "{\"statements\": []}".toList then .ok [("statements", .arr [])]
  else if t = "{\"verdicts\": []}".toList then .ok [("verdicts", .arr [])]
  else .error .invalid

/-- An LLM that finds no statements. -/
def sampleWorld : World Unit where
  call := fun _ m => match m.user with
    | .statements _ => (.ok "{\"statements\": []}".toList, ())
    | .contextRecall _ _ => (.ok "Here you are: {\"verdicts\": []}".toList, ())
    | _ => (.ok "no idea".toList, ())
  loads := sampleLoads
  digit := asciiDigit

/-- The hypotheses of `C45_recall_violation` can be met. -/
example : (computeContextRecall (evaluator sampleWorld "m" "" 3) ⟨"q", "r", some ⟨["g"], ["p"]⟩⟩ ()).1
    = .error .zeroDivision :=
  C45_recall_violation sampleWorld "m" "" 3 _ ⟨["g"], ["p"]⟩ rfl "p" [] "g" [] rfl rfl () () ()
    [("statements", .arr [])] [("verdicts", .arr [])]
    ⟨_, "{\"statements\": []}".toList, rfl, by decide +kernel, by simp [sampleWorld, sampleLoads]⟩ rfl
    ⟨_, "{\"verdicts\": []}".toList, rfl, by decide +kernel, by
      simp only [sampleWorld, sampleLoads]
      rw [if_neg (by decide)]
      simp⟩ rfl

/-- The same world is tame, so the other metrics work with it. -/
example : Tame sampleWorld where
  call := by
    intro s m e s' h
    simp only [sampleWorld] at h
    split at h <;> simp at h
  loads := by
    intro t e _ h
    simp only [sampleWorld, sampleLoads] at h
    split at h
    · simp at h
    · split at h
      · simp at h
      · simpa using h.symm
  verdicts := by
    intro t d xs _ h1 h2 v hv
    simp only [sampleWorld, sampleLoads] at h1
    split at h1
    · simp only [Except.ok.injEq] at h1
      subst h1
      simp [Dict.get] at h2
    · split at h1
      · simp only [Except.ok.injEq] at h1
        subst h1
        simp only [Dict.get, List.find?_cons, beq_self_eq_true, Option.map_some, Option.some.injEq, Json.arr.injEq] at h2
        subst h2
        simp at hv
      · simp at h1
  digits := by
    intro s m text s' h neg ds hs
    have : ∀ c ∈ text, asciiDigit c = none := by
      simp only [sampleWorld] at h
      split at h <;>
        · simp only [Prod.mk.injEq, Except.ok.injEq, and_true] at h
          subst h
          decide
    rw [show sampleWorld.digit = asciiDigit from rfl, (C47_none asciiDigit text).2 this] at hs
    simp at hs

end Verif.TextGen
