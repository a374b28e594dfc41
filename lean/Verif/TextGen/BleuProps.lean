import Verif.TextGen.Bleu
import Verif.TextGen.CrashProps

/-! # C68 (BLEU tokens and the text metrics), C69 (`compute_all`), C70 (check of messages) -/

namespace Verif.TextGen

/-! ## C68 -/

/-- A separator of the tokenizer: white space or a period. -/
def CharClasses.sep (cc : CharClasses) (c : Char) : Bool := cc.space c || c == '.'

/-- What Unicode guarantees about the classes: white space and the period are neither word characters nor digits, and the
dollar sign is no white space. -/
structure CharClasses.Ok (cc : CharClasses) : Prop where
  word : ∀ c, cc.sep c = true → cc.word c = false
  digit : ∀ c, cc.sep c = true → cc.digit c = false
  dollar : cc.space '$' = false

variable {cc : CharClasses}

theorem tokenClass_sep (h : cc.Ok) {c : Char} (hc : cc.sep c = true) (cs : List Char) : tokenClass cc c cs = none := by
  have h1 := h.word c hc
  have h2 : c ≠ '$' := by
    rintro rfl
    simp [CharClasses.sep, h.dollar] at hc
  have h3 : (!cc.space c && c != '.') = false := by
    simp only [CharClasses.sep, Bool.or_eq_true, beq_iff_eq] at hc
    rcases hc with hc | hc <;> simp [hc]
  simp [tokenClass, h1, h2, h3]

/-- The class of a token never accepts a separator. -/
theorem tokenClass_stops (h : cc.Ok) {c : Char} {cs : List Char} {p : Char → Bool} (hp : tokenClass cc c cs = some p)
    {x : Char} (hx : cc.sep x = true) : p x = false := by
  unfold tokenClass at hp
  split at hp
  · cases hp; exact h.word x hx
  · split at hp
    · cases hp; exact h.digit x hx
    · split at hp
      · cases hp
        simp only [CharClasses.sep, Bool.or_eq_true, beq_iff_eq] at hx
        rcases hx with hx | hx <;> simp [hx]
      · cases hp

theorem tokenClass_some {c : Char} (hc : cc.sep c = false) (cs : List Char) :
    ∃ p, tokenClass cc c cs = some p := by
  have h3 : (!cc.space c && c != '.') = true := by
    simp only [CharClasses.sep, Bool.or_eq_false_iff, beq_eq_false_iff_ne] at hc
    simp [hc.1, hc.2]
  unfold tokenClass
  rw [if_pos h3]
  split
  · exact ⟨_, rfl⟩
  · split <;> exact ⟨_, rfl⟩

theorem takeWhile_stop {p : Char → Bool} {x : Char} (hx : p x = false) (a b : List Char) :
    (a ++ x :: b).takeWhile p = a.takeWhile p ∧ (a ++ x :: b).dropWhile p = a.dropWhile p ++ x :: b := by
  induction a with
  | nil => simp [hx]
  | cons c a ih => cases hc : p c <;> simp [hc, ih]

theorem tokenClass_append (h : cc.Ok) {c x : Char} (hx : cc.sep x = true) (a b : List Char) :
    tokenClass cc c (a ++ x :: b) = tokenClass cc c a := by
  simp only [tokenClass, (takeWhile_stop (h.digit x hx) a b).1]

/-- **C68 (cover).** No character is lost or moved: the tokens in order are the text without white space and periods. -/
theorem C68_cover (h : cc.Ok) (t : List Char) : (tokenize cc t).flatten = t.filter (fun c => !cc.sep c) := by
  induction hn : t.length using Nat.strong_induction_on generalizing t with
  | _ n ih =>
    cases t with
    | nil => simp [tokenize]
    | cons c cs =>
      rw [tokenize]
      cases hc : cc.sep c with
      | true =>
        rw [tokenClass_sep h hc]
        simp only [List.filter_cons, hc]
        exact ih cs.length (by simp [← hn]) cs rfl
      | false =>
        obtain ⟨p, hp⟩ := tokenClass_some hc cs
        rw [hp]
        have hlen := (List.dropWhile_sublist p (l := cs)).length_le
        have := ih (cs.dropWhile p).length (by simp [← hn]; omega) (cs.dropWhile p) rfl
        simp only [List.flatten_cons, this, List.filter_cons, hc]
        have hall : (cs.takeWhile p).filter (fun c => !cc.sep c) = cs.takeWhile p := by
          rw [List.filter_eq_self]
          intro x hx
          have hpx : p x = true := List.mem_takeWhile_imp hx
          cases hsx : cc.sep x with
          | true => rw [tokenClass_stops h hp hsx] at hpx; cases hpx
          | false => rfl
        simp only [Bool.not_false, if_true, List.cons_append]
        congr 1
        conv_rhs => rw [← List.takeWhile_append_dropWhile (p := p) (l := cs), List.filter_append, hall]

theorem tokens_nonempty (t : List Char) : [] ∉ tokenize cc t := by
  induction hn : t.length using Nat.strong_induction_on generalizing t with
  | _ n ih =>
    cases t with
    | nil => simp [tokenize]
    | cons c cs =>
      rw [tokenize]
      cases hp : tokenClass cc c cs with
      | none => exact ih cs.length (by simp [← hn]) cs rfl
      | some p =>
        have hlen := (List.dropWhile_sublist p (l := cs)).length_le
        have := ih (cs.dropWhile p).length (by simp [← hn]; omega) (cs.dropWhile p) rfl
        simpa using this

/-- **C68 (separators).** White space and periods split the text: what stands before a separator and what stands after
it are tokenized independently. -/
theorem C68_split (h : cc.Ok) {x : Char} (hx : cc.sep x = true) (a b : List Char) :
    tokenize cc (a ++ x :: b) = tokenize cc a ++ tokenize cc b := by
  induction hn : a.length using Nat.strong_induction_on generalizing a with
  | _ n ih =>
    cases a with
    | nil =>
      have e : tokenize cc (x :: b) = tokenize cc b := by
        rw [tokenize, tokenClass_sep h hx]
      simpa [tokenize] using e
    | cons c cs =>
      rw [List.cons_append, tokenize, tokenize, tokenClass_append h hx]
      cases hp : tokenClass cc c cs with
      | none => exact ih cs.length (by simp [← hn]) cs rfl
      | some p =>
        have hlen := (List.dropWhile_sublist p (l := cs)).length_le
        obtain ⟨e1, e2⟩ := takeWhile_stop (tokenClass_stops h hp hx) cs b
        dsimp only
        rw [e1, e2, ih (cs.dropWhile p).length (by simp [← hn]; omega) (cs.dropWhile p) rfl]
        rfl

theorem takeWhile_run {p : Char → Bool} (a b : List Char) (ha : ∀ x ∈ a, p x = true)
    (hb : ∀ x, b.head? = some x → p x = false) : (a ++ b).takeWhile p = a ∧ (a ++ b).dropWhile p = b := by
  induction a with
  | nil =>
    cases b with
    | nil => simp
    | cons x b => simp [hb x rfl]
  | cons c a ih => simp [ha c (by simp), ih (fun x hx => ha x (by simp [hx]))]

/-- **C68 (words).** A maximal run of word characters at the start of a text is one token. -/
theorem C68_word (w r : List Char) (hne : w ≠ []) (hw : ∀ x ∈ w, cc.word x = true)
    (hr : ∀ x, r.head? = some x → cc.word x = false) : tokenize cc (w ++ r) = w :: tokenize cc r := by
  obtain ⟨c, cs, rfl⟩ := List.exists_cons_of_ne_nil hne
  have hc := hw c (by simp)
  obtain ⟨e1, e2⟩ := takeWhile_run cs r (fun x hx => hw x (by simp [hx])) hr
  have : tokenClass cc c (cs ++ r) = some cc.word := by simp [tokenClass, hc]
  rw [List.cons_append, tokenize, this]
  simp [e1, e2]

/-- **C68 (prices).** A dollar sign with the digits that follow it is one token. -/
theorem C68_price (hd : cc.word '$' = false) (ds r : List Char) (hne : ds ≠ []) (hds : ∀ x ∈ ds, cc.digit x = true)
    (hr : ∀ x, r.head? = some x → cc.digit x = false) :
    tokenize cc ('$' :: (ds ++ r)) = ('$' :: ds) :: tokenize cc r := by
  obtain ⟨e1, e2⟩ := takeWhile_run ds r hds hr
  have : tokenClass cc '$' (ds ++ r) = some cc.digit := by simp [tokenClass, hd, e1, hne]
  rw [tokenize, this]
  simp [e1, e2]

/-- **C68 (punctuation).** A punctuation mark (other than a dollar sign with digits) takes everything up to the next
white space or period with it into one token: `(word` is one token, although `word)` is two. -/
theorem C68_punctuation (c : Char) (cs r : List Char) (hw : cc.word c = false) (hs : cc.sep c = false)
    (hd : c = '$' → ∀ x, (cs ++ r).head? = some x → cc.digit x = false) (hcs : ∀ x ∈ cs, cc.sep x = false)
    (hr : ∀ x, r.head? = some x → cc.sep x = true) : tokenize cc (c :: (cs ++ r)) = (c :: cs) :: tokenize cc r := by
  have hsep : ∀ x, (!cc.space x && x != '.') = !cc.sep x := by
    intro x; simp [CharClasses.sep, bne]
  have : tokenClass cc c (cs ++ r) = some (fun x => !cc.sep x) := by
    have h2 : ¬ ((c == '$') = true ∧ ((cs ++ r).takeWhile cc.digit).isEmpty = false) := by
      rintro ⟨h1, h2⟩
      have h1 : c = '$' := by simpa using h1
      have := hd h1
      cases hh : cs ++ r with
      | nil => simp [hh] at h2
      | cons x xs => rw [hh] at this h2; simp [this x rfl] at h2
    unfold tokenClass
    rw [if_neg (by simp [hw]), if_neg (by simpa using h2), if_pos (by rw [hsep, hs]; rfl)]
    congr 1
    funext x
    exact hsep x
  obtain ⟨e1, e2⟩ := takeWhile_run (p := fun x => !cc.sep x) cs r (fun x hx => by simp [hcs x hx])
    (fun x hx => by simp [hr x hx])
  rw [tokenize, this]
  simp only [e1, e2]

/-- **C68 (only the words count).** Two texts made of the same pieces, joined, preceded and followed by whatever white
space and periods, have the same tokens. A text is given as pieces, each followed by a non-empty run of separators. -/
theorem C68_layout (h : cc.Ok) (lead : List Char) (hl : ∀ x ∈ lead, cc.sep x = true)
    (pieces : List (List Char × List Char))
    (hp : ∀ q ∈ pieces, q.2 ≠ [] ∧ ∀ x ∈ q.2, cc.sep x = true) (last : List Char) :
    tokenize cc (lead ++ (pieces.flatMap (fun q => q.1 ++ q.2)) ++ last)
      = (pieces.map Prod.fst ++ [last]).flatMap (tokenize cc) := by
  have hlead : ∀ (l t : List Char), (∀ x ∈ l, cc.sep x = true) → tokenize cc (l ++ t) = tokenize cc t := by
    intro l t
    induction l with
    | nil => simp
    | cons x l ih =>
      intro hx
      have := C68_split h (hx x (by simp)) [] (l ++ t)
      rw [List.nil_append] at this
      rw [List.cons_append, this, ih (fun y hy => hx y (by simp [hy]))]
      simp [tokenize]
  rw [List.append_assoc, hlead lead _ hl]
  clear hl lead
  induction pieces with
  | nil => simp
  | cons q qs ih =>
    obtain ⟨hne, hs⟩ := hp q (by simp)
    obtain ⟨x, xs, hq⟩ := List.exists_cons_of_ne_nil hne
    rw [hq] at hs
    have := C68_split h (hs x (by simp)) q.1 (xs ++ (qs.flatMap (fun q => q.1 ++ q.2) ++ last))
    simp only [List.flatMap_cons, List.append_assoc, hq, List.cons_append, List.map_cons]
    rw [this, hlead xs _ (fun y hy => hs y (by simp [hy])), ih (fun q' hq' => hp q' (by simp [hq']))]

/-- Every period replaced by a blank. -/
def periodsToBlanks (t : List Char) : List Char := t.map (fun c => if c = '.' then ' ' else c)

/-- Replacing a separator by another one does not change the tokens. -/
theorem tokenize_map (h : cc.Ok) (f : Char → Char) (hf : ∀ c, cc.sep c = true → cc.sep (f c) = true)
    (hf' : ∀ c, cc.sep c = false → f c = c) (t : List Char) : tokenize cc (t.map f) = tokenize cc t := by
  -- split at the first separator
  have hmap : ∀ l : List Char, (∀ c ∈ l, cc.sep c = false) → l.map f = l := by
    intro l hl
    exact (List.map_congr_left (fun c hc => hf' c (hl c hc))).trans (List.map_id l)
  induction hn : t.length using Nat.strong_induction_on generalizing t with
  | _ n ih =>
    have hsp := List.takeWhile_append_dropWhile (p := fun c => !cc.sep c) (l := t)
    have hpre : ∀ c ∈ t.takeWhile (fun c => !cc.sep c), cc.sep c = false := by
      intro c hc
      have : (!cc.sep c) = true := List.mem_takeWhile_imp (p := fun c => !cc.sep c) hc
      simpa using this
    cases hd : t.dropWhile (fun c => !cc.sep c) with
    | nil =>
      rw [hd, List.append_nil] at hsp
      rw [hmap t (by rw [← hsp]; exact hpre)]
    | cons x b =>
      have hx : cc.sep x = true := by
        have := List.head_dropWhile_not (p := fun c => !cc.sep c) (l := t) (by rw [hd]; simp)
        simpa [hd] using this
      rw [hd] at hsp
      have hb : b.length < n := by
        have := congrArg List.length hsp
        simp at this; omega
      rw [← hsp, List.map_append, List.map_cons, hmap _ hpre, C68_split h (hf x hx), C68_split h hx,
        ih b.length hb b rfl]

/-- **C68 (periods).** BLEU treats a period like a blank, whatever the library that computes the score from the tokens:
replacing all periods by blanks in the prediction and in the references changes nothing. -/
theorem C68_periods (h : cc.Ok) (hblank : cc.space ' ' = true) (bleu : BleuLib) (prediction : List Char)
    (references : List (List Char)) (weights : List Rat) :
    calculateSentenceBleu cc bleu (periodsToBlanks prediction) (references.map periodsToBlanks) weights
      = calculateSentenceBleu cc bleu prediction references weights := by
  have key : ∀ t, tokenize cc (periodsToBlanks t) = tokenize cc t := by
    intro t
    apply tokenize_map h
    · intro c hc
      by_cases e : c = '.'
      · simp [e, CharClasses.sep, hblank]
      · simpa [e] using hc
    · intro c hc
      have : c ≠ '.' := by rintro rfl; simp [CharClasses.sep] at hc
      simp [this]
  unfold calculateSentenceBleu
  have hr : (references.map periodsToBlanks).map (tokenize cc) = references.map (tokenize cc) := by
    rw [List.map_map]
    exact List.map_congr_left (fun t _ => key t)
  rw [key, hr]

/-- **C68 (final period).** A period or white space at the end of the prediction does not matter. -/
theorem C68_trailing (h : cc.Ok) {x : Char} (hx : cc.sep x = true) (bleu : BleuLib) (prediction : List Char)
    (references : List (List Char)) (weights : List Rat) :
    calculateSentenceBleu cc bleu (prediction ++ [x]) references weights
      = calculateSentenceBleu cc bleu prediction references weights := by
  have : tokenize cc (prediction ++ [x]) = tokenize cc prediction := by
    rw [C68_split h hx]; simp [tokenize]
  rw [calculateSentenceBleu, this]; rfl

/-- **C68 (result).** With weights the result is what the library says, rounded to 0 below 1e-9: it is 0 or at least
1e-9, and at most the library's value when that is not negative. Without weights there is no result. -/
theorem C68_result (bleu : BleuLib) (prediction : List Char) (references : List (List Char)) (weights : List Rat) :
    (weights = [] → calculateSentenceBleu cc bleu prediction references weights = .error .valueError) ∧
    (∀ x, calculateSentenceBleu cc bleu prediction references weights = .ok x →
      weights ≠ [] ∧ ∃ r, bleu (references.map (tokenize cc)) (tokenize cc prediction) weights = .ok r ∧
        ((1 / 10 ^ 9 ≤ r ∧ x = r) ∨ (r < 1 / 10 ^ 9 ∧ x = 0))) := by
  refine ⟨fun hw => by simp [calculateSentenceBleu, hw], ?_⟩
  intro x hx
  unfold calculateSentenceBleu at hx
  split at hx
  · cases hx
  · rename_i hw
    refine ⟨fun e => hw (by simp [e]), ?_⟩
    cases hb : bleu (references.map (tokenize cc)) (tokenize cc prediction) weights with
    | error e => rw [hb] at hx; cases hx
    | ok r =>
      rw [hb] at hx
      refine ⟨r, rfl, ?_⟩
      injection hx with hx
      split at hx
      · exact Or.inl ⟨by assumption, hx.symm⟩
      · rename_i hr; exact Or.inr ⟨lt_of_not_ge hr, hx.symm⟩

/-- **C68 (BLEU metric).** `compute_sentence_bleu` returns a metric exactly when there is a context, there are weights and the library
gives a score for the tokens of the response against those of the ground truths of the context; the metric carries that score
(0 below 1e-9) and the weights asked for. -/
theorem C68_bleu (bleu : BleuLib) (qr : QueryResponse) (weights : List Rat) (m : BleuMetric) :
    computeSentenceBleu cc bleu qr weights = .ok m ↔
      m.weights = weights ∧ weights ≠ [] ∧ ∃ c r, qr.context = some c ∧
        bleu (c.groundtruth.map (fun g => tokenize cc g.toList)) (tokenize cc qr.response.toList) weights = .ok r ∧
        ((1 / 10 ^ 9 ≤ r ∧ m.value = r) ∨ (r < 1 / 10 ^ 9 ∧ m.value = 0)) := by
  obtain ⟨v, ws⟩ := m
  cases hc : qr.context with
  | none => simp [computeSentenceBleu, hc]
  | some c =>
    simp only [computeSentenceBleu, hc, calculateSentenceBleu, List.map_map, Function.comp_def]
    by_cases hw : weights = []
    · simp [hw]
    · rw [if_neg (by simpa using hw)]
      cases hb : bleu (c.groundtruth.map (fun g => tokenize cc g.toList)) (tokenize cc qr.response.toList) weights with
      | error e => simp [hb]
      | ok r =>
        simp only [Except.ok.injEq, BleuMetric.mk.injEq]
        constructor
        · rintro ⟨h1, h2⟩
          refine ⟨h2.symm, hw, c, r, rfl, hb, ?_⟩
          split at h1
          · exact Or.inl ⟨by assumption, h1.symm⟩
          · rename_i hr; exact Or.inr ⟨lt_of_not_ge hr, h1.symm⟩
        · rintro ⟨h2, -, c', r', hc', hr', h1⟩
          cases hc'
          rw [hb] at hr'
          cases hr'
          refine ⟨?_, h2.symm⟩
          rcases h1 with ⟨a, b⟩ | ⟨a, b⟩
          · rw [if_pos a, b]
          · rw [if_neg (not_le_of_gt a), b]

/-- **C68 (ROUGE).** `compute_rouge` needs a context and returns one metric for each requested type, in the order of the
request, with the library's score or 0 if that is negative. -/
theorem C68_rouge (rouge : RougeLib) (qr : QueryResponse) (types : List String) (hn : types.Nodup) (stem : Bool) :
    (qr.context = none → computeRouge rouge qr types stem = .error .valueError) ∧
    ∀ c f, qr.context = some c → rouge qr.response c.groundtruth types stem = .ok (some f) →
      computeRouge rouge qr types stem
        = .ok (types.map (fun t => ⟨if f t < 0 then 0 else f t, t, stem⟩)) := by
  refine ⟨fun h => by simp [computeRouge, h], ?_⟩
  intro c f hc hf
  have hd : Shared.dictOf (types.map (fun t => (t, max (f t) 0))) = types.map (fun t => (t, max (f t) 0)) :=
    Shared.dictOf_nodup (by simpa [List.map_map, Function.comp_def] using hn)
  simp only [computeRouge, hc, calculateRougeScores, hf, hd, List.map_map]
  congr 1
  apply List.map_congr_left
  intro t _
  simp only [Function.comp_apply, RougeMetric.mk.injEq, and_true]
  split
  · exact max_eq_right (le_of_lt (by assumption))
  · exact max_eq_left (le_of_not_gt (by assumption))

/-- The ASCII part of the classes. -/
def ascii : CharClasses where
  word c := c.isAlphanum || c == '_'
  digit c := c.isDigit
  space c := c.isWhitespace

theorem ascii_ok : ascii.Ok where
  word c h := by
    simp only [CharClasses.sep, ascii, Char.isWhitespace, Bool.or_eq_true, decide_eq_true_eq, beq_iff_eq] at h
    rcases h with (((rfl | rfl) | rfl) | rfl) | rfl <;> decide
  digit c h := by
    simp only [CharClasses.sep, ascii, Char.isWhitespace, Bool.or_eq_true, decide_eq_true_eq, beq_iff_eq] at h
    rcases h with (((rfl | rfl) | rfl) | rfl) | rfl <;> decide
  dollar := by decide

/-- Prices are kept together; punctuation in front of a word sticks to it and to what follows. -/
example : tokenize ascii "It's $25 (cheap), e.g.".toList
    = ["It".toList, "'s".toList, "$25".toList, "(cheap),".toList, "e".toList, "g".toList] := by
  simp [tokenize, tokenClass, ascii]

/-! ## C69 -/

section All
variable {σ : Type}

/-- One entry after the other: from state `s` the computations of the list give the entries and end in `s'`. -/
inductive InTurn : List (String × Run σ (Option Metric)) → σ → List (String × Option Metric) → σ → Prop
  | nil (s : σ) : InTurn [] s [] s
  | cons {k : String} {m : Run σ (Option Metric)} {ms x xs s s1 s'} (h : m s = (.ok x, s1)) (ht : InTurn ms s1 xs s') :
      InTurn ((k, m) :: ms) s ((k, x) :: xs) s'

theorem runAll_ok (ms : List (String × Run σ (Option Metric))) (s s' : σ) (xs : List (String × Option Metric)) :
    runAll ms s = (.ok xs, s') ↔ InTurn ms s xs s' := by
  induction ms generalizing s xs with
  | nil =>
    rw [runAll, pure_ok]
    constructor
    · rintro ⟨rfl, rfl⟩; exact .nil s
    · intro h; cases h; exact ⟨rfl, rfl⟩
  | cons a ms ih =>
    obtain ⟨k, m⟩ := a
    rw [runAll, bind_ok]
    constructor
    · rintro ⟨x, s1, h1, h2⟩
      rw [bind_ok] at h2
      obtain ⟨rest, s2, h3, h4⟩ := h2
      rw [pure_ok] at h4
      obtain ⟨rfl, rfl⟩ := h4
      exact .cons h1 ((ih s1 rest).1 h3)
    · intro h
      cases h with
      | cons h1 ht =>
        rename_i x xs' s1
        refine ⟨x, s1, h1, ?_⟩
        rw [bind_ok]
        exact ⟨xs', s', (ih s1 xs').2 ht, (pure_ok _ _ _ _).2 ⟨rfl, rfl⟩⟩

/-- The ten guided metrics, in the order of `compute_all`. -/
def guidedMetrics (ev : Evaluator σ) (qr : QueryResponse) : List (String × Run σ (Option Metric)) :=
  [("AnswerCorrectness", computeAnswerCorrectness ev qr), ("AnswerRelevance", computeAnswerRelevance ev qr),
    ("Bias", computeBias ev qr), ("ContextPrecision", computeContextPrecision ev qr),
    ("ContextRecall", computeContextRecall ev qr), ("ContextRelevance", computeContextRelevance ev qr),
    ("Faithfulness", computeFaithfulness ev qr), ("Hallucination", computeHallucination ev qr),
    ("SummaryCoherence", computeSummaryCoherence ev qr), ("Toxicity", computeToxicity ev qr)]

/-- **C69 (entries).** `compute_all` returns exactly when every single computation does, each continuing where the one
before left the LLM, and its entries are their results. -/
theorem C69_entries (ev : Evaluator σ) (bleu : BleuLib) (rouge : RougeLib) (qr : QueryResponse) (weights : List Rat)
    (types : List String) (stem : Bool) (s s' : σ) (all : AllMetrics) :
    computeAll ev cc bleu rouge qr weights types stem s = (.ok all, s') ↔
      InTurn (guidedMetrics ev qr) s all.guided s' ∧ computeRouge rouge qr types stem = .ok all.rouge ∧
        computeSentenceBleu cc bleu qr weights = .ok all.bleu := by
  rw [computeAll, bind_ok]
  constructor
  · rintro ⟨g, s1, h1, h2⟩
    rw [bind_ok] at h2
    obtain ⟨r, s2, h3, h4⟩ := h2
    rw [bind_ok] at h4
    obtain ⟨b, s3, h5, h6⟩ := h4
    rw [lift_ok] at h3 h5
    rw [pure_ok] at h6
    obtain ⟨rfl, rfl⟩ := h6
    obtain ⟨h3, rfl⟩ := h3
    obtain ⟨h5, rfl⟩ := h5
    exact ⟨(runAll_ok _ _ _ _).1 h1, h3, h5⟩
  · rintro ⟨h1, h2, h3⟩
    refine ⟨all.guided, s', (runAll_ok _ _ _ _).2 h1, ?_⟩
    rw [bind_ok]
    refine ⟨all.rouge, s', (lift_ok _ _ _ _).2 ⟨h2, rfl⟩, ?_⟩
    rw [bind_ok]
    exact ⟨all.bleu, s', (lift_ok _ _ _ _).2 ⟨h3, rfl⟩, (pure_ok _ _ _ _).2 ⟨rfl, rfl⟩⟩

theorem inTurn_keys {ms : List (String × Run σ (Option Metric))} {s s' : σ} {xs : List (String × Option Metric)}
    (h : InTurn ms s xs s') : xs.map Prod.fst = ms.map Prod.fst := by
  induction h with
  | nil => rfl
  | cons _ _ ih => simp [ih]

theorem inTurn_of_gives {ms : List (String × Run σ (Option Metric))} (h : ∀ m ∈ ms, GivesMetric m.2) (s : σ) :
    ∃ xs s', InTurn ms s xs s' ∧ ∀ x ∈ xs, x.2 ≠ none := by
  induction ms generalizing s with
  | nil => exact ⟨[], s, .nil s, by simp⟩
  | cons a ms ih =>
    obtain ⟨k, m⟩ := a
    obtain ⟨x, hx⟩ := h (k, m) (by simp) s
    obtain ⟨xs, s', h1, h2⟩ := ih (fun m hm => h m (by simp [hm])) (m s).2
    exact ⟨(k, some x) :: xs, s', .cons (Prod.ext hx rfl) h1, by simpa using h2⟩

/-- The full statement of C69: with a client, a context and working libraries `compute_all` returns all metrics, whatever
a well-behaved LLM replies. -/
def AllReturned (qr : QueryResponse) : Prop :=
  ∀ (σ : Type) (w : World σ), Tame w → HasStatements w → ∀ (model sys : String) (retries : Nat) (cc : CharClasses)
    (bleu : BleuLib) (rouge : RougeLib), (∀ a b c, ∃ x, bleu a b c = .ok x) → (∀ a b c d, ∃ f, rouge a b c d = .ok (some f)) →
    ∀ (weights : List Rat) (types : List String) (stem : Bool), weights ≠ [] →
      ∀ s, ∃ all, (computeAll (evaluator w model sys retries) cc bleu rouge qr weights types stem s).1 = .ok all ∧
        all.guided.map Prod.fst = ["AnswerCorrectness", "AnswerRelevance", "Bias", "ContextPrecision", "ContextRecall",
          "ContextRelevance", "Faithfulness", "Hallucination", "SummaryCoherence", "Toxicity"] ∧
        ∀ x ∈ all.guided, x.2 ≠ none

/-- **C69 (partial).** It holds for every response with a predicted context. Missing: an empty predicted context. -/
theorem C69_all_partial (qr : QueryResponse) (c : Context) (hc : qr.context = some c) (hp : c.prediction ≠ []) :
    AllReturned qr := by
  intro σ w ht hs model sys retries cc bleu rouge hb hr weights types stem hw s
  obtain ⟨a1, a2, a3, a4⟩ := C45_no_context_partial w ht model sys retries qr
  obtain ⟨b1, b2, b3, b4, b5, b6⟩ := C45_context_partial w ht model sys retries qr c hc
  have hg : ∀ m ∈ guidedMetrics (evaluator w model sys retries) qr, GivesMetric m.2 := by
    intro m hm
    simp only [guidedMetrics, List.mem_cons, List.not_mem_nil, or_false] at hm
    rcases hm with rfl | rfl | rfl | rfl | rfl | rfl | rfl | rfl | rfl | rfl
    · exact b1
    · exact a1
    · exact a2
    · exact b2
    · exact b6 hs
    · exact b3
    · exact b4
    · exact b5 hp
    · exact a4
    · exact a3
  obtain ⟨xs, s', h1, h2⟩ := inTurn_of_gives hg s
  obtain ⟨f, hf⟩ := hr qr.response c.groundtruth types stem
  obtain ⟨x, hx⟩ := hb ((c.groundtruth.map String.toList).map (tokenize cc)) (tokenize cc qr.response.toList) weights
  have h3 : ∃ r, computeRouge rouge qr types stem = .ok r := by
    simp only [computeRouge, hc, calculateRougeScores, hf]; exact ⟨_, rfl⟩
  have h4 : ∃ b, computeSentenceBleu cc bleu qr weights = .ok b := by
    simp only [computeSentenceBleu, hc, calculateSentenceBleu, hx]
    rw [if_neg (by simpa using hw)]
    exact ⟨_, rfl⟩
  obtain ⟨r, h3⟩ := h3
  obtain ⟨b, h4⟩ := h4
  have hall := (C69_entries (cc := cc) (evaluator w model sys retries) bleu rouge qr weights types stem s s'
    ⟨xs, r, b⟩).2 ⟨h1, h3, h4⟩
  exact ⟨⟨xs, r, b⟩, by rw [hall], (inTurn_keys h1).trans rfl, h2⟩

/-- **C69, violated** for every response with an empty predicted context: the `ValueError` of hallucination ends
`compute_all`, after up to seven other metrics were paid for. -/
theorem C69_violation (qr : QueryResponse) (c : Context) (hc : qr.context = some c) (hp : c.prediction = []) :
    ¬ AllReturned qr := by
  intro h
  -- an LLM client that always fails with an invalid response
  let w : World Unit := ⟨fun s _ => (.error .invalid, s), fun _ => .error .invalid, fun _ => none⟩
  have ht : Tame w := by
    refine ⟨?_, ?_, ?_, ?_⟩
    · intro s m e s' h; cases h; rfl
    · intro t e _ h; cases h; rfl
    · intro t d xs _ h; cases h
    · intro s m text s' h; cases h
  have hs : HasStatements w := by intro t d _ h; cases h
  obtain ⟨all, ha, -, -⟩ := h Unit w ht hs "m" "s" 0 ascii (fun _ _ _ => .ok 1) (fun _ _ _ _ => .ok (some (fun _ => 0)))
    (fun _ _ _ => ⟨1, rfl⟩) (fun _ _ _ _ => ⟨_, rfl⟩) [1] [] false (by simp) ()
  have := (C69_entries (cc := ascii) (evaluator w "m" "s" 0) _ _ qr [1] [] false () () all).1 (Prod.ext ha rfl)
  obtain ⟨h1, -, -⟩ := this
  simp only [guidedMetrics] at h1
  generalize all.guided = entries at h1
  cases h1 with | cons _ h1 =>
  cases h1 with | cons _ h1 =>
  cases h1 with | cons _ h1 =>
  cases h1 with | cons _ h1 =>
  cases h1 with | cons _ h1 =>
  cases h1 with | cons _ h1 =>
  cases h1 with | cons _ h1 =>
  cases h1 with | cons h1 _ =>
  have h8 := congrArg Prod.fst h1
  exact absurd ((hallucination_empty w "m" "s" 0 qr c hc hp ()).symm.trans h8) (by simp)

example : AllReturned ⟨"q", "r", some ⟨["g"], ["p"]⟩⟩ := C69_all_partial _ _ rfl (by simp)
example : ¬ AllReturned ⟨"q", "r", some ⟨["g"], []⟩⟩ := C69_violation _ _ rfl rfl

end All

/-! ## C70 -/

/-- Messages in the format of the API: a list of dictionaries with a text under `role` and under `content`. -/
def WellFormed (messages : PyVal) : Prop :=
  ∃ ms, messages = .list ms ∧ ∀ m ∈ ms, ∃ kvs role content, m = .dict kvs ∧
    kvs.find? (fun kv => kv.1 == "role") = some ("role", .str role) ∧
    kvs.find? (fun kv => kv.1 == "content") = some ("content", .str content)

theorem item_str (m : PyVal) (key : String) :
    (((m.item key).map PyVal.isStr).getD false = true) ↔
      ∃ kvs s, m = .dict kvs ∧ kvs.find? (fun kv => kv.1 == key) = some (key, .str s) := by
  cases m with
  | dict kvs =>
    simp only [PyVal.item, PyVal.dict.injEq]
    cases hf : kvs.find? (fun kv => kv.1 == key) with
    | none => simp [hf]
    | some kv =>
      obtain ⟨k, v⟩ := kv
      have hk : k = key := by
        have := List.find?_some hf
        simpa using this
      subst hk
      cases v <;> simp [PyVal.isStr, hf]
  | _ => simp [PyVal.item]

/-- **C70 (exact).** The check accepts exactly the well-formed messages and raises `TypeError` or `ValueError` for all
others. -/
theorem C70_validate (messages : PyVal) :
    (validateMessages messages = .ok () ↔ WellFormed messages) ∧
    (¬ WellFormed messages →
      validateMessages messages = .error .typeError ∨ validateMessages messages = .error .valueError) := by
  have hok : validateMessages messages = .ok () ↔ WellFormed messages := by
    cases messages with
    | list ms =>
      simp only [validateMessages]
      constructor
      · intro h
        split at h
        · cases h
        · split at h
          · cases h
          · split at h
            · cases h
            · split at h
              · cases h
              · rename_i h1 h2 h3 h4
                simp only [Bool.not_eq_true', Bool.not_eq_false, List.all_eq_true] at h3 h4
                refine ⟨ms, rfl, ?_⟩
                intro m hm
                obtain ⟨kvs, r, e1, e2⟩ := (item_str m "role").1 (h3 m hm)
                obtain ⟨kvs', c, e3, e4⟩ := (item_str m "content").1 (h4 m hm)
                rw [e1] at e3; cases e3
                exact ⟨kvs, r, c, e1, e2, e4⟩
      · rintro ⟨ms', e, h⟩
        cases e
        have h1 : ms.all PyVal.isDict = true := by
          rw [List.all_eq_true]; intro m hm
          obtain ⟨kvs, r, c, rfl, -, -⟩ := h m hm; rfl
        have h3 : ms.all (fun m => ((m.item "role").map PyVal.isStr).getD false) = true := by
          rw [List.all_eq_true]; intro m hm
          obtain ⟨kvs, r, c, e1, e2, -⟩ := h m hm
          exact (item_str m "role").2 ⟨kvs, r, e1, e2⟩
        have h4 : ms.all (fun m => ((m.item "content").map PyVal.isStr).getD false) = true := by
          rw [List.all_eq_true]; intro m hm
          obtain ⟨kvs, r, c, e1, -, e2⟩ := h m hm
          exact (item_str m "content").2 ⟨kvs, c, e1, e2⟩
        have h2 : ms.all (fun m => (m.item "role").isSome && (m.item "content").isSome) = true := by
          rw [List.all_eq_true]; intro m hm
          obtain ⟨kvs, r, c, rfl, e2, e3⟩ := h m hm
          simp [PyVal.item, e2, e3]
        simp [h1, h2, h3, h4]
    | _ =>
      simp only [validateMessages]
      constructor
      · intro h; cases h
      · rintro ⟨ms, e, -⟩; cases e
  refine ⟨hok, ?_⟩
  intro hn
  have hne : validateMessages messages ≠ .ok () := fun h => hn (hok.1 h)
  unfold validateMessages at hne ⊢
  split
  · rename_i ms
    split
    · exact Or.inl rfl
    · split
      · exact Or.inr rfl
      · split
        · exact Or.inl rfl
        · split
          · exact Or.inl rfl
          · rename_i h1 h2 h3 h4
            exact absurd (by simp_all) hne
  · exact Or.inl rfl

/-- **C70 (nothing is sent).** Malformed messages are rejected by both wrappers before any request: the server and the
token counters are as before. -/
theorem C70_rejects {σ : Type} (api : σ → PyVal → Except PyErr ApiReply × σ)
    (api' : σ → PyVal → Except PyErr (MistralContent × String) × σ) (t : Tokens) (messages : PyVal)
    (h : ¬ WellFormed messages) (s : σ) :
    (∃ e, openAiChecked api t messages s = (.error e, t, s)) ∧ (∃ e, mistralChecked api' messages s = (.error e, s)) := by
  rcases (C70_validate messages).2 h with h | h <;> simp [openAiChecked, mistralChecked, h]

/-- **C70 (well-formed messages are sent as they are).** -/
theorem C70_sends {σ : Type} (api : σ → PyVal → Except PyErr ApiReply × σ)
    (api' : σ → PyVal → Except PyErr (MistralContent × String) × σ) (t : Tokens) (messages : PyVal)
    (h : WellFormed messages) (s : σ) :
    (openAiChecked api t messages s).1 = (openAiCall t (api s messages).1).1 ∧
    (openAiChecked api t messages s).2.2 = (api s messages).2 ∧
    (mistralChecked api' messages s).2 = (api' s messages).2 := by
  have h' := (C70_validate messages).1.2 h
  refine ⟨by simp [openAiChecked, h'], by simp [openAiChecked, h'], ?_⟩
  simp only [mistralChecked, h']
  rcases api' s messages with ⟨a | b, s'⟩ <;> rfl

/-- **C70 (the package's own messages).** Whatever the prompts are, the messages built by the package are well-formed. -/
theorem C70_package (system user : String) : WellFormed (packageMessages system user) := by
  refine ⟨_, rfl, ?_⟩
  intro m hm
  simp only [List.mem_cons, List.not_mem_nil, or_false] at hm
  rcases hm with rfl | rfl
  · exact ⟨_, "system", system, rfl, rfl, rfl⟩
  · exact ⟨_, "user", user, rfl, rfl, rfl⟩

/-- **C70 (replies of Mistral).** A text that was not cut off is passed on; a missing one is the empty text; a truncated one
is an error. -/
theorem C70_mistral (c : MistralContent) (finish : String) (reply : String) :
    mistralCall c finish = .ok reply ↔ (c = .missing ∧ reply = "") ∨ (c = .text reply ∧ finish ≠ "length") := by
  cases c with
  | missing => simp [mistralCall, eq_comm]
  | text s =>
    simp only [mistralCall]
    split <;> simp_all
  | chunks => simp only [mistralCall]; split <;> simp

/-- An extra key is allowed, a missing content is not. -/
example : WellFormed (.list [.dict [("name", .other), ("role", .str "user"), ("content", .str "hi")]]) ∧
    ¬ WellFormed (.list [.dict [("role", .str "user")]]) := by
  constructor
  · rw [← (C70_validate _).1]; rfl
  · rw [← (C70_validate _).1]; intro h; cases h

end Verif.TextGen
