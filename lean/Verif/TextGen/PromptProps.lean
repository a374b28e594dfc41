import Verif.TextGen.Prompt
import Verif.TextGen.ReprProps

/-! # C78: different inputs give different prompts -/

namespace Verif.TextGen

theorem line_front {x1 x2 r1 r2 : List Char} (h1 : '\n' ∉ x1) (h2 : '\n' ∉ x2) (h : x1 ++ '\n' :: r1 = x2 ++ '\n' :: r2) :
    x1 = x2 ∧ r1 = r2 := by
  induction x1 generalizing x2 with
  | nil =>
    cases x2 with
    | nil => simpa using h
    | cons c x2 =>
      simp only [List.nil_append, List.cons_append, List.cons.injEq] at h
      exact absurd (by rw [h.1]; simp) h2
  | cons c x1 ih =>
    cases x2 with
    | nil =>
      simp only [List.nil_append, List.cons_append, List.cons.injEq] at h
      exact absurd (by rw [h.1]; simp) h1
    | cons d x2 =>
      simp only [List.cons_append, List.cons.injEq] at h
      obtain ⟨rfl, h⟩ := h
      obtain ⟨rfl, h3⟩ := ih (fun hx => h1 (by simp [hx])) (fun hx => h2 (by simp [hx])) h
      exact ⟨rfl, h3⟩

theorem line_back {x1 x2 a1 a2 : List Char} (h1 : '\n' ∉ x1) (h2 : '\n' ∉ x2) (h : a1 ++ '\n' :: x1 = a2 ++ '\n' :: x2) :
    a1 = a2 ∧ x1 = x2 := by
  have := congrArg List.reverse h
  simp only [List.reverse_append, List.reverse_cons, List.append_assoc, List.singleton_append] at this
  obtain ⟨h3, h4⟩ := line_front (by simpa using h1) (by simpa using h2) this
  exact ⟨List.reverse_injective h4, List.reverse_injective h3⟩

theorem sep_front (sep : List Char) (hs : sep.head? = some '\n') {x1 x2 r1 r2 : List Char} (h1 : '\n' ∉ x1) (h2 : '\n' ∉ x2)
    (h : x1 ++ (sep ++ r1) = x2 ++ (sep ++ r2)) : x1 = x2 ∧ r1 = r2 := by
  obtain ⟨c, p, rfl⟩ : ∃ c p, sep = c :: p := by
    cases sep with
    | nil => simp at hs
    | cons c p => exact ⟨c, p, rfl⟩
  simp only [List.head?_cons, Option.some.injEq] at hs
  subst hs
  obtain ⟨h3, h4⟩ := line_front h1 h2 h
  exact ⟨h3, List.append_cancel_left h4⟩

theorem sep_back (sep : List Char) (hs : sep.getLast? = some '\n') {x1 x2 a1 a2 : List Char} (h1 : '\n' ∉ x1) (h2 : '\n' ∉ x2)
    (h : a1 ++ (sep ++ x1) = a2 ++ (sep ++ x2)) : a1 = a2 ∧ x1 = x2 := by
  obtain ⟨p, rfl⟩ : ∃ p, sep = p ++ ['\n'] := by
    rw [List.getLast?_eq_some_iff] at hs
    exact hs
  have h' : (a1 ++ p) ++ '\n' :: x1 = (a2 ++ p) ++ '\n' :: x2 := by simpa using h
  obtain ⟨h3, h4⟩ := line_back h1 h2 h'
  exact ⟨List.append_cancel_right h3, h4⟩

/-- To compute with a long literal, its characters are taken at once. -/
theorem viaChars (P : List Char → Prop) {l : List Char} (h : P l) : P (String.ofList l).toList := by
  rw [String.toList_ofList]; exact h

/-- The first and the 106th character of a prompt, which tell the templates apart. -/
def Instruction.letters : Instruction → Char × Char
  | .claims _ => ('B', 'M')
  | .opinions _ => ('B', 'T')
  | .statements _ => ('B', 's')
  | .answerCorrectness _ _ _ => ('B', ' ')
  | .answerRelevance _ _ => ('B', 't')
  | .bias _ => ('B', 'c')
  | .contextPrecision _ _ _ => ('G', 'n')
  | .contextRecall _ _ => ('G', 'm')
  | .contextRelevance _ _ => ('B', 'r')
  | .faithfulness _ _ => ('B', 'a')
  | .hallucination _ _ => ('B', 'n')
  | .summaryCoherence _ _ => ('Y', 'c')
  | .toxicity _ => ('B', 'h')

set_option maxRecDepth 100000 in
theorem claims_letters : claimsText.toList[0]? = some 'B' ∧ claimsText.toList[105]? = some 'M' := by
  unfold claimsText
  exact viaChars (fun l => l[0]? = some 'B' ∧ l[105]? = some 'M') (by decide +kernel)

set_option maxRecDepth 100000 in
theorem opinions_letters : opinionsText.toList[0]? = some 'B' ∧ opinionsText.toList[105]? = some 'T' := by
  unfold opinionsText
  exact viaChars (fun l => l[0]? = some 'B' ∧ l[105]? = some 'T') (by decide +kernel)

set_option maxRecDepth 100000 in
theorem statements_letters : statementsText.toList[0]? = some 'B' ∧ statementsText.toList[105]? = some 's' := by
  unfold statementsText
  exact viaChars (fun l => l[0]? = some 'B' ∧ l[105]? = some 's') (by decide +kernel)

set_option maxRecDepth 100000 in
theorem answerCorrectness_letters : answerCorrectnessText.toList[0]? = some 'B' ∧ answerCorrectnessText.toList[105]? = some ' ' := by
  unfold answerCorrectnessText
  exact viaChars (fun l => l[0]? = some 'B' ∧ l[105]? = some ' ') (by decide +kernel)

set_option maxRecDepth 100000 in
theorem answerRelevance_letters : answerRelevanceText.toList[0]? = some 'B' ∧ answerRelevanceText.toList[105]? = some 't' := by
  unfold answerRelevanceText
  exact viaChars (fun l => l[0]? = some 'B' ∧ l[105]? = some 't') (by decide +kernel)

set_option maxRecDepth 100000 in
theorem bias_letters : biasText.toList[0]? = some 'B' ∧ biasText.toList[105]? = some 'c' := by
  unfold biasText
  exact viaChars (fun l => l[0]? = some 'B' ∧ l[105]? = some 'c') (by decide +kernel)

set_option maxRecDepth 100000 in
theorem contextPrecision_letters : contextPrecisionText.toList[0]? = some 'G' ∧ contextPrecisionText.toList[105]? = some 'n' := by
  unfold contextPrecisionText
  exact viaChars (fun l => l[0]? = some 'G' ∧ l[105]? = some 'n') (by decide +kernel)

set_option maxRecDepth 100000 in
theorem contextRecall_letters : contextRecallText.toList[0]? = some 'G' ∧ contextRecallText.toList[105]? = some 'm' := by
  unfold contextRecallText
  exact viaChars (fun l => l[0]? = some 'G' ∧ l[105]? = some 'm') (by decide +kernel)

set_option maxRecDepth 100000 in
theorem contextRelevance_letters : contextRelevanceText.toList[0]? = some 'B' ∧ contextRelevanceText.toList[105]? = some 'r' := by
  unfold contextRelevanceText
  exact viaChars (fun l => l[0]? = some 'B' ∧ l[105]? = some 'r') (by decide +kernel)

set_option maxRecDepth 100000 in
theorem faithfulness_letters : faithfulnessText.toList[0]? = some 'B' ∧ faithfulnessText.toList[105]? = some 'a' := by
  unfold faithfulnessText
  exact viaChars (fun l => l[0]? = some 'B' ∧ l[105]? = some 'a') (by decide +kernel)

set_option maxRecDepth 100000 in
theorem hallucination_letters : hallucinationText.toList[0]? = some 'B' ∧ hallucinationText.toList[105]? = some 'n' := by
  unfold hallucinationText
  exact viaChars (fun l => l[0]? = some 'B' ∧ l[105]? = some 'n') (by decide +kernel)

set_option maxRecDepth 100000 in
theorem summaryCoherence_letters : summaryCoherenceText.toList[0]? = some 'Y' ∧ summaryCoherenceText.toList[105]? = some 'c' := by
  unfold summaryCoherenceText
  exact viaChars (fun l => l[0]? = some 'Y' ∧ l[105]? = some 'c') (by decide +kernel)

set_option maxRecDepth 100000 in
theorem toxicity_letters : toxicityText.toList[0]? = some 'B' ∧ toxicityText.toList[105]? = some 'h' := by
  unfold toxicityText
  exact viaChars (fun l => l[0]? = some 'B' ∧ l[105]? = some 'h') (by decide +kernel)

theorem letters_append {l : List Char} {a b : Char} (h : l[0]? = some a ∧ l[105]? = some b) (r : List Char) :
    (l ++ r)[0]? = some a ∧ (l ++ r)[105]? = some b := by
  obtain ⟨h1, h2⟩ := h
  have k1 := (List.getElem?_eq_some_iff.1 h1).1
  have k2 := (List.getElem?_eq_some_iff.1 h2).1
  rw [List.getElem?_append_left k1, List.getElem?_append_left k2]
  exact ⟨h1, h2⟩

theorem render_letters (printable : Char → Bool) (i : Instruction) :
    (i.render printable)[0]? = some i.letters.1 ∧ (i.render printable)[105]? = some i.letters.2 := by
  cases i <;> simp only [Instruction.render, List.append_assoc, Instruction.letters]
  · exact letters_append claims_letters _
  · exact letters_append opinions_letters _
  · exact letters_append statements_letters _
  · exact letters_append answerCorrectness_letters _
  · exact letters_append answerRelevance_letters _
  · exact letters_append bias_letters _
  · exact letters_append contextPrecision_letters _
  · exact letters_append contextRecall_letters _
  · exact letters_append contextRelevance_letters _
  · exact letters_append faithfulness_letters _
  · exact letters_append hallucination_letters _
  · exact letters_append summaryCoherence_letters _
  · exact letters_append toxicity_letters _

theorem render_kind (printable : Char → Bool) (i j : Instruction) (h : i.render printable = j.render printable) : i.letters = j.letters := by
  obtain ⟨h1, h2⟩ := render_letters printable i
  obtain ⟨h3, h4⟩ := render_letters printable j
  rw [h, h3, Option.some.injEq] at h1
  rw [h, h4, Option.some.injEq] at h2
  exact Prod.ext h1.symm h2.symm

/-- The two kinds of prompts with two free texts, which both differ. -/
def Ambiguous (i j : Instruction) : Prop :=
  (∃ q c g q' c' g', i = .contextPrecision q c g ∧ j = .contextPrecision q' c' g' ∧ q ≠ q' ∧ g ≠ g' ∧ ('\n' ∈ q.toList ∨ '\n' ∈ q'.toList)) ∨
  (∃ t s t' s', i = .summaryCoherence t s ∧ j = .summaryCoherence t' s' ∧ t ≠ t' ∧ s ≠ s' ∧ ('\n' ∈ t.toList ∨ '\n' ∈ t'.toList))

/-- **C78 (partial).** Two requests with the same prompt are the same request, except for two context precision requests or two
summary coherence requests where both free texts differ and the first one of them has a line break. Missing: these. -/
theorem C78_injective_partial (printable : Char → Bool) (i j : Instruction) (h : i.render printable = j.render printable) :
    i = j ∨ Ambiguous i j := by
  have hk := render_kind printable i j h
  cases i <;> cases j <;> first | (exfalso; revert hk; simp only [Instruction.letters]; decide) | skip
  case claims.claims s t =>
    simp only [Instruction.render, List.append_assoc] at h
    have h1 := List.append_cancel_right (List.append_cancel_left h)
    exact Or.inl (by rw [String.toList_injective h1])
  case opinions.opinions s t =>
    simp only [Instruction.render, List.append_assoc] at h
    have h1 := List.append_cancel_right (List.append_cancel_left h)
    exact Or.inl (by rw [String.toList_injective h1])
  case statements.statements s t =>
    simp only [Instruction.render, List.append_assoc] at h
    have h1 := List.append_cancel_right (List.append_cancel_left h)
    exact Or.inl (by rw [String.toList_injective h1])
  case answerCorrectness.answerCorrectness q a b q' a' b' =>
    simp only [Instruction.render] at h
    have h1 := List.append_cancel_right h
    simp only [List.append_assoc] at h1
    have h2 := List.append_cancel_left h1
    have h3 : (q.toList ++ ("\n\nPrediction Statements:\n".toList ++ reprList printable a)) ++ ("\n\nGround Truth Statements:\n".toList ++ reprList printable b) =
        (q'.toList ++ ("\n\nPrediction Statements:\n".toList ++ reprList printable a')) ++ ("\n\nGround Truth Statements:\n".toList ++ reprList printable b') := by
      simpa only [List.append_assoc] using h2
    obtain ⟨h4, h5⟩ := sep_back _ (by decide) (reprList_newline _) (reprList_newline _) h3
    obtain ⟨h6, h7⟩ := sep_back _ (by decide) (reprList_newline _) (reprList_newline _) h4
    exact Or.inl (by rw [String.toList_injective h6, reprList_inj h5, reprList_inj h7])
  case answerRelevance.answerRelevance q a q' a' =>
    simp only [Instruction.render] at h
    have h1 := List.append_cancel_right h
    simp only [List.append_assoc] at h1
    obtain ⟨h6, h7⟩ := sep_back _ (by decide) (reprList_newline _) (reprList_newline _) (List.append_cancel_left h1)
    exact Or.inl (by rw [String.toList_injective h6, reprList_inj h7])
  case bias.bias a a' =>
    simp only [Instruction.render, List.append_assoc] at h
    have h1 := List.append_cancel_right (List.append_cancel_left h)
    exact Or.inl (by rw [reprList_inj h1])
  case contextPrecision.contextPrecision q c g q' c' g' =>
    simp only [Instruction.render] at h
    have h1 := List.append_cancel_right h
    simp only [List.append_assoc] at h1
    have h2 := List.append_cancel_left h1
    have same : q = q' → Instruction.contextPrecision q c g = .contextPrecision q' c' g' := by
      rintro rfl
      have h3 := List.append_cancel_left (List.append_cancel_left h2)
      obtain ⟨h4, h5⟩ := sep_front _ (by decide) (reprList_newline _) (reprList_newline _) h3
      rw [reprList_inj h4, String.toList_injective h5]
    by_cases hq : q = q'
    · exact Or.inl (same hq)
    by_cases hg : g = g'
    · left
      subst hg
      have h3 : (q.toList ++ ("\n\nContext List:\n".toList ++ reprList printable c)) ++ ("\n\nGround Truth:\n".toList ++ g.toList) =
          (q'.toList ++ ("\n\nContext List:\n".toList ++ reprList printable c')) ++ ("\n\nGround Truth:\n".toList ++ g.toList) := by
        simpa only [List.append_assoc] using h2
      obtain ⟨h4, h5⟩ := sep_back _ (by decide) (reprList_newline _) (reprList_newline _) (List.append_cancel_right h3)
      exact absurd (String.toList_injective h4) hq
    by_cases hn : '\n' ∈ q.toList ∨ '\n' ∈ q'.toList
    · exact Or.inr (Or.inl ⟨q, c, g, q', c', g', rfl, rfl, hq, hg, hn⟩)
    · rw [not_or] at hn
      obtain ⟨h4, -⟩ := sep_front _ (by decide) hn.1 hn.2 h2
      exact absurd (String.toList_injective h4) hq
  case contextRecall.contextRecall a b a' b' =>
    simp only [Instruction.render] at h
    have h1 := List.append_cancel_right h
    simp only [List.append_assoc] at h1
    obtain ⟨h6, h7⟩ := sep_back _ (by decide) (reprList_newline _) (reprList_newline _) (List.append_cancel_left h1)
    exact Or.inl (by rw [reprList_inj h6, reprList_inj h7])
  case contextRelevance.contextRelevance q a q' a' =>
    simp only [Instruction.render] at h
    have h1 := List.append_cancel_right h
    simp only [List.append_assoc] at h1
    obtain ⟨h6, h7⟩ := sep_back _ (by decide) (reprList_newline _) (reprList_newline _) (List.append_cancel_left h1)
    exact Or.inl (by rw [String.toList_injective h6, reprList_inj h7])
  case faithfulness.faithfulness a b a' b' =>
    simp only [Instruction.render] at h
    have h1 := List.append_cancel_right h
    simp only [List.append_assoc] at h1
    obtain ⟨h6, h7⟩ := sep_back _ (by decide) (reprList_newline _) (reprList_newline _) (List.append_cancel_left h1)
    exact Or.inl (by rw [reprList_inj h6, reprList_inj h7])
  case hallucination.hallucination t b t' b' =>
    simp only [Instruction.render] at h
    have h1 := List.append_cancel_right h
    simp only [List.append_assoc] at h1
    obtain ⟨h6, h7⟩ := sep_front _ (by decide) (reprList_newline _) (reprList_newline _) (List.append_cancel_left h1)
    exact Or.inl (by rw [reprList_inj h6, String.toList_injective h7])
  case summaryCoherence.summaryCoherence t s t' s' =>
    simp only [Instruction.render] at h
    have h1 := List.append_cancel_right h
    simp only [List.append_assoc] at h1
    have h2 := List.append_cancel_left h1
    by_cases ht : t = t'
    · subst ht
      have h3 := List.append_cancel_left (List.append_cancel_left h2)
      exact Or.inl (by rw [String.toList_injective h3])
    by_cases hs : s = s'
    · subst hs
      have h3 := List.append_cancel_right h2
      exact absurd (String.toList_injective h3) ht
    by_cases hn : '\n' ∈ t.toList ∨ '\n' ∈ t'.toList
    · exact Or.inr (Or.inr ⟨t, s, t', s', rfl, rfl, ht, hs, hn⟩)
    · rw [not_or] at hn
      obtain ⟨h4, -⟩ := sep_front _ (by decide) hn.1 hn.2 h2
      exact absurd (String.toList_injective h4) ht
  case toxicity.toxicity a a' =>
    simp only [Instruction.render, List.append_assoc] at h
    have h1 := List.append_cancel_right (List.append_cancel_left h)
    exact Or.inl (by rw [reprList_inj h1])

/-- **C78, violated.** Two context precision requests with the same prompt, with other contexts; and two summary coherence requests
with the same prompt. -/
theorem C78_violation (printable : Char → Bool) :
    (Instruction.contextPrecision "Who?" ["a"] "x\n\nContext List:\n['b']\n\nGround Truth:\ny").render printable =
      (Instruction.contextPrecision "Who?\n\nContext List:\n['a']\n\nGround Truth:\nx" ["b"] "y").render printable ∧
    (Instruction.summaryCoherence "A long text." "Short.\n\n    Summary:\n    Shorter.").render printable =
      (Instruction.summaryCoherence "A long text.\n\n    Summary:\n    Short." "Shorter.").render printable := by
  constructor
  · simp only [Instruction.render, List.append_assoc]
    rw [show reprList printable ["a"] = "['a']".toList from by rw [show "['a']".toList = ['[', '\'', 'a', '\'', ']'] by decide +kernel]; rfl,
      show reprList printable ["b"] = "['b']".toList from by rw [show "['b']".toList = ['[', '\'', 'b', '\'', ']'] by decide +kernel]; rfl]
    rw [show "x\n\nContext List:\n['b']\n\nGround Truth:\ny" = "x" ++ "\n\nContext List:\n" ++ "['b']" ++ "\n\nGround Truth:\n" ++ "y" from by decide,
      show "Who?\n\nContext List:\n['a']\n\nGround Truth:\nx" = "Who?" ++ "\n\nContext List:\n" ++ "['a']" ++ "\n\nGround Truth:\n" ++ "x" from by decide]
    simp only [String.toList_append, List.append_assoc]
  · simp only [Instruction.render, List.append_assoc]
    rw [show "Short.\n\n    Summary:\n    Shorter." = "Short." ++ "\n\n    Summary:\n    " ++ "Shorter." from by decide,
      show "A long text.\n\n    Summary:\n    Short." = "A long text." ++ "\n\n    Summary:\n    " ++ "Short." from by decide]
    simp only [String.toList_append, List.append_assoc]

/-- The hypothesis of `C78_injective_partial` with two requests that are written differently. -/
example (printable : Char → Bool) : (Instruction.bias ["it's"]).render printable = (Instruction.bias ["it" ++ "'s"]).render printable := by
  rw [show "it" ++ "'s" = "it's" from by decide]

/-- What Python prints. -/
example (printable : Char → Bool) : reprList printable ["it's", "a\n\"b'"] = "[\"it's\", 'a\\n\"b\\'']".toList := by
  rw [show "[\"it's\", 'a\\n\"b\\'']".toList =
    ['[', '"', 'i', 't', '\'', 's', '"', ',', ' ', '\'', 'a', '\\', 'n', '"', 'b', '\\', '\'', '\'', ']'] from by decide +kernel]
  rfl

end Verif.TextGen
