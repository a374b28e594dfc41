import Verif.TextGen.Text
import Mathlib.Tactic.Ring
import Mathlib.Tactic.Linarith

/-!
# C44, C46, C47: what is read out of an LLM reply
-/

namespace Verif.TextGen

/-! ## C46: braces -/

theorem greedy_none (cs : List Char) : greedyToBrace cs = none ↔ '}' ∉ cs := by
  induction cs with
  | nil => simp [greedyToBrace]
  | cons c cs ih =>
    simp only [greedyToBrace, List.mem_cons, not_or]
    cases h : greedyToBrace cs with
    | none =>
      rw [h] at ih
      have h1 := ih.1 rfl
      by_cases hc : c = '}'
      · simp [hc]
      · simp [hc, h1, Ne.symm hc]
    | some m =>
      rw [h] at ih
      have : '}' ∈ cs := by
        by_contra h2
        exact absurd (ih.2 h2) (by simp)
      simp [this]

theorem greedy_some (cs m : List Char) :
    greedyToBrace cs = some m ↔ ∃ body post, cs = body ++ '}' :: post ∧ '}' ∉ post ∧ m = body ++ ['}'] := by
  induction cs generalizing m with
  | nil => simp [greedyToBrace]
  | cons c cs ih =>
    simp only [greedyToBrace]
    cases h : greedyToBrace cs with
    | none =>
      have hn := (greedy_none cs).1 h
      constructor
      · intro h1
        by_cases hc : c = '}'
        · simp only [hc, if_true, Option.some.injEq] at h1
          exact ⟨[], cs, by simp [hc], hn, by simp [← h1]⟩
        · simp [hc] at h1
      · rintro ⟨body, post, h1, h2, h3⟩
        cases body with
        | nil =>
          simp only [List.nil_append, List.cons.injEq] at h1
          simp [h1.1, h3]
        | cons b body =>
          simp only [List.cons_append, List.cons.injEq] at h1
          exact absurd (by rw [h1.2]; simp) hn
    | some m' =>
      obtain ⟨body, post, h1, h2, h3⟩ := (ih m').1 h
      simp only [Option.some.injEq]
      constructor
      · intro h4
        exact ⟨c :: body, post, by simp [h1], h2, by simp [← h4, h3]⟩
      · rintro ⟨body', post', h5, h6, h7⟩
        cases body' with
        | nil =>
          simp only [List.nil_append, List.cons.injEq] at h5
          exact absurd (by rw [← h5.2, h1]; simp) h6
        | cons b body' =>
          simp only [List.cons_append, List.cons.injEq] at h5
          have h8 := (ih (body' ++ ['}'])).2 ⟨body', post', h5.2, h6, rfl⟩
          rw [h] at h8
          simp only [Option.some.injEq] at h8
          rw [h7, h8, h5.1]; rfl

/-- C46: the text handed to the JSON parser is the part of the reply from the first opening brace to the last
closing brace. -/
theorem C46_outermost (text m : List Char) :
    searchBraces text = some m ↔
      ∃ pre body post, text = pre ++ m ++ post ∧ m = '{' :: body ++ ['}'] ∧ '{' ∉ pre ∧ '}' ∉ post := by
  induction text with
  | nil =>
    simp only [searchBraces, reduceCtorEq, false_iff]
    rintro ⟨pre, body, post, h1, h2, -⟩
    rw [h2] at h1
    simp at h1
  | cons c cs ih =>
    simp only [searchBraces]
    by_cases hc : c = '{'
    · subst hc
      rw [if_pos rfl]
      cases h : greedyToBrace cs with
      | some g =>
        obtain ⟨body, post, h1, h2, h3⟩ := (greedy_some cs g).1 h
        simp only [Option.some.injEq]
        constructor
        · intro h4
          exact ⟨[], body, post, by simp [← h4, h3, h1], by simp [← h4, h3], by simp, h2⟩
        · rintro ⟨pre, body', post', h5, h6, h7, h8⟩
          cases pre with
          | cons p pre =>
            simp only [List.cons_append, List.cons.injEq] at h5
            exact absurd (by simp [← h5.1]) h7
          | nil =>
            rw [h6] at h5 ⊢
            simp only [List.nil_append, List.cons_append, List.cons.injEq, true_and, List.append_assoc] at h5 ⊢
            have h9 := (greedy_some cs (body' ++ ['}'])).2 ⟨body', post', h5, h8, rfl⟩
            rw [h] at h9
            simpa using h9
      | none =>
        have hn := (greedy_none cs).1 h
        constructor
        · intro h1
          obtain ⟨pre, body, post, h2, h3, -, -⟩ := ih.1 h1
          exact absurd (by rw [h2, h3]; simp) hn
        · rintro ⟨pre, body', post', h5, h6, h7, h8⟩
          cases pre with
          | cons p pre =>
            simp only [List.cons_append, List.cons.injEq] at h5
            exact absurd (by simp [← h5.1]) h7
          | nil =>
            rw [h6] at h5
            simp only [List.nil_append, List.cons_append, List.cons.injEq, true_and] at h5
            exact absurd (by rw [h5]; simp) hn
    · rw [if_neg hc, ih]
      constructor
      · rintro ⟨pre, body, post, h1, h2, h3, h4⟩
        exact ⟨c :: pre, body, post, by simp [h1], h2, by simp [h3, Ne.symm hc], h4⟩
      · rintro ⟨pre, body, post, h1, h2, h3, h4⟩
        cases pre with
        | nil =>
          rw [h2] at h1
          simp only [List.nil_append, List.cons_append, List.cons.injEq] at h1
          exact absurd h1.1 hc
        | cons p pre =>
          simp only [List.cons_append, List.cons.injEq, List.mem_cons, not_or] at h1 h3
          exact ⟨pre, body, post, by rw [h1.2], h2, h3.2, h4⟩

/-- C46: extraction fails exactly if no closing brace follows an opening one. -/
theorem C46_fails (text : List Char) :
    searchBraces text = none ↔ ¬ ∃ a b c, text = a ++ '{' :: b ++ '}' :: c := by
  induction text with
  | nil => simp [searchBraces]
  | cons x cs ih =>
    simp only [searchBraces]
    by_cases hx : x = '{'
    · subst hx
      rw [if_pos rfl]
      cases h : greedyToBrace cs with
      | some g =>
        obtain ⟨body, post, h1, h2, h3⟩ := (greedy_some cs g).1 h
        simp only [reduceCtorEq, false_iff, not_not]
        exact ⟨[], body, post, by simp [h1]⟩
      | none =>
        have hn := (greedy_none cs).1 h
        simp only [ih]
        constructor
        · rintro h1 ⟨a, b, c, h2⟩
          cases a with
          | nil =>
            simp only [List.nil_append, List.cons_append, List.cons.injEq, true_and] at h2
            exact hn (by rw [h2]; simp)
          | cons y a =>
            simp only [List.cons_append, List.cons.injEq] at h2
            exact h1 ⟨a, b, c, by rw [h2.2]⟩
        · rintro h1 ⟨a, b, c, h2⟩
          exact h1 ⟨'{' :: a, b, c, by rw [h2]; simp⟩
    · rw [if_neg hx, ih, not_iff_not]
      constructor
      · rintro ⟨a, b, c, h⟩
        exact ⟨x :: a, b, c, by simp [h]⟩
      · rintro ⟨a, b, c, h⟩
        cases a with
        | nil =>
          simp only [List.nil_append, List.cons_append, List.cons.injEq] at h
          exact absurd h.1 hx
        | cons y a =>
          simp only [List.cons_append, List.cons.injEq] at h
          exact ⟨a, b, c, by rw [h.2]⟩

/-- C46: prose around the reply changes nothing, as long as no opening brace comes before and no closing brace
after. -/
theorem C46_prose (pre text post : List Char) (h1 : '{' ∉ pre) (h2 : '}' ∉ post) :
    searchBraces (pre ++ text ++ post) = searchBraces text := by
  cases h : searchBraces text with
  | some m =>
    obtain ⟨a, b, c, h5, h6, h7, h8⟩ := (C46_outermost text m).1 h
    exact (C46_outermost _ m).2 ⟨pre ++ a, b, c ++ post, by simp [h5], h6, by simp [h1, h7], by simp [h2, h8]⟩
  | none =>
    rw [C46_fails] at h ⊢
    rintro ⟨a, b, c, h5⟩
    apply h
    -- the braces are inside of `text`
    have k1 : pre ++ (text ++ post) = a ++ ('{' :: b ++ '}' :: c) := by simpa using h5
    rcases List.append_eq_append_iff.1 k1 with ⟨u, k2, k3⟩ | ⟨u, k2, k3⟩
    · -- `a = pre ++ u`
      rcases List.append_eq_append_iff.1 (show text ++ post = (u ++ '{' :: b) ++ ('}' :: c) by simpa using k3) with
        ⟨v, k4, k5⟩ | ⟨v, k4, k5⟩
      · exact absurd (by rw [k5]; simp) h2
      · cases v with
        | nil => exact absurd (by simp only [List.nil_append] at k5; rw [← k5]; simp) h2
        | cons y v =>
          simp only [List.cons_append, List.cons.injEq] at k5
          exact ⟨u, b, v, by rw [k4, ← k5.1]⟩
    · -- the opening brace would be in `pre`
      cases u with
      | nil =>
        simp only [List.append_nil, List.nil_append] at k2 k3
        rcases List.append_eq_append_iff.1 (show text ++ post = ('{' :: b) ++ ('}' :: c) by simpa using k3.symm) with
          ⟨v, k4, k5⟩ | ⟨v, k4, k5⟩
        · exact absurd (by rw [k5]; simp) h2
        · cases v with
          | nil => exact absurd (by simp only [List.nil_append] at k5; rw [← k5]; simp) h2
          | cons y v =>
            simp only [List.cons_append, List.cons.injEq] at k5
            exact ⟨[], b, v, by rw [k4, ← k5.1]; simp⟩
      | cons y u =>
        simp only [List.cons_append, List.cons.injEq] at k3
        exact absurd (by rw [k2, ← k3.1]; simp) h1

example : searchBraces "Sure! {\"a\": {}} ok".toList = some "{\"a\": {}}".toList := by decide +kernel
example : searchBraces "} no {".toList = none := by decide +kernel

/-! ## C47: the first signed integer -/

/-- The table of decimal digits contains no minus sign. -/
def DigitsOk (digit : Char → Option Nat) : Prop := digit '-' = none

/-- The value of a run of digits written with powers of ten. -/
def positional (digit : Char → Option Nat) : List Char → Nat
  | [] => 0
  | c :: cs => (digit c).getD 0 * 10 ^ cs.length + positional digit cs

theorem foldl_positional (digit : Char → Option Nat) (ds : List Char) (acc : Nat) :
    ds.foldl (fun acc c => 10 * acc + (digit c).getD 0) acc = acc * 10 ^ ds.length + positional digit ds := by
  induction ds generalizing acc with
  | nil => simp [positional]
  | cons d ds ih =>
    rw [List.foldl_cons, ih, positional, List.length_cons, pow_succ]
    ring

theorem digitsVal_eq (digit : Char → Option Nat) (ds : List Char) : digitsVal digit ds = positional digit ds := by
  rw [digitsVal, foldl_positional]; omega

/-- A run of digits: every character is a digit, and no digit follows. -/
def IsRun (digit : Char → Option Nat) (ds post : List Char) : Prop :=
  ds ≠ [] ∧ (∀ c ∈ ds, digit c ≠ none) ∧ (∀ c, post.head? = some c → digit c = none)

theorem digitRun_eq (digit : Char → Option Nat) (ds post : List Char) (h : IsRun digit ds post) :
    digitRun digit (ds ++ post) = ds := by
  obtain ⟨-, h2, h3⟩ := h
  rw [digitRun, List.takeWhile_append_of_pos]
  · cases post with
    | nil => simp
    | cons c post =>
      rw [List.takeWhile_cons_of_neg]
      · simp
      · simp [h3 c rfl]
  · intro c hc
    cases h4 : digit c with
    | none => exact absurd h4 (h2 c hc)
    | some n => rfl

theorem digitRun_split (digit : Char → Option Nat) (cs : List Char) (h : digitRun digit cs ≠ []) :
    ∃ post, cs = digitRun digit cs ++ post ∧ IsRun digit (digitRun digit cs) post := by
  refine ⟨cs.dropWhile (fun c => (digit c).isSome), (List.takeWhile_append_dropWhile).symm, h, ?_, ?_⟩
  · intro c hc
    have := List.mem_takeWhile_imp hc
    intro h1
    rw [h1] at this
    simp at this
  · intro c hc
    cases h1 : cs.dropWhile (fun c => (digit c).isSome) with
    | nil => rw [h1] at hc; simp at hc
    | cons x xs =>
      rw [h1] at hc
      simp only [List.head?_cons, Option.some.injEq] at hc
      subst hc
      have := List.head?_dropWhile_not (fun c => (digit c).isSome) cs
      rw [h1] at this
      simp at this
      exact this

/-- The characters of a sign. -/
def signChars (neg : Bool) : List Char := if neg then ['-'] else []

/-- C47: the match is the first maximal run of digits, with the minus sign directly in front of it if there is
one. -/
theorem C47_first (digit : Char → Option Nat) (hd : DigitsOk digit) (text : List Char) (neg : Bool) (ds : List Char) :
    searchInt digit text = some (neg, ds) ↔
      ∃ pre post, text = pre ++ signChars neg ++ ds ++ post ∧ IsRun digit ds post ∧ (∀ c ∈ pre, digit c = none) ∧
        (neg = false → pre.getLast? ≠ some '-') := by
  induction text with
  | nil =>
    simp only [searchInt, reduceCtorEq, false_iff]
    rintro ⟨pre, post, h1, ⟨h2, -⟩, -⟩
    have := congrArg List.length h1
    simp only [List.length_nil, List.length_append] at this
    exact h2 (List.length_eq_zero_iff.1 (by omega))
  | cons c cs ih =>
    simp only [searchInt]
    by_cases h1 : c = '-' ∧ digitRun digit cs ≠ []
    · rw [if_pos h1]
      obtain ⟨hc, hr⟩ := h1
      subst hc
      obtain ⟨post, hp1, hp2⟩ := digitRun_split digit cs hr
      simp only [Option.some.injEq, Prod.mk.injEq]
      constructor
      · rintro ⟨rfl, rfl⟩
        refine ⟨[], post, ?_, hp2, by simp, by simp⟩
        simp only [signChars, if_true, List.nil_append, List.cons_append]
        rw [← hp1]
      · rintro ⟨pre, post', h2, h3, h4, h5⟩
        have hrun := digitRun_eq digit ds post' h3
        cases pre with
        | nil =>
          cases neg with
          | true =>
            simp only [signChars, if_true, List.nil_append, List.cons_append, List.cons.injEq, true_and] at h2
            exact ⟨rfl, by rw [h2, hrun]⟩
          | false =>
            simp only [signChars, Bool.false_eq_true, if_false, List.nil_append] at h2
            cases hds : ds with
            | nil => exact absurd hds h3.1
            | cons d ds' =>
              rw [hds] at h2
              simp only [List.cons_append, List.cons.injEq] at h2
              exact absurd (h2.1 ▸ hd) (h3.2.1 d (by simp [hds]))
        | cons p pre =>
          simp only [List.cons_append, List.cons.injEq] at h2
          obtain ⟨h2a, h2b⟩ := h2
          -- the digits right after the minus sign would be in `pre`, or the sign would be the last of `pre`
          cases hpre : pre with
          | nil =>
            subst hpre
            cases neg with
            | false => exact absurd (by simp [← h2a]) (h5 rfl)
            | true =>
              simp only [signChars, if_true, List.nil_append, List.cons_append] at h2b
              rw [h2b] at hr
              rw [digitRun, List.takeWhile_cons_of_neg (by simp [show digit '-' = none from hd])] at hr
              exact absurd rfl hr
          | cons q pre' =>
            subst hpre
            rw [h2b, List.cons_append, List.cons_append, List.cons_append, digitRun,
              List.takeWhile_cons_of_neg (by simp [h4 q (by simp)])] at hr
            exact absurd rfl hr
    · rw [if_neg h1]
      by_cases h2 : (digit c).isSome
      · rw [if_pos h2]
        have hr : digitRun digit (c :: cs) ≠ [] := by
          rw [digitRun, List.takeWhile_cons_of_pos (by exact h2)]; simp
        obtain ⟨post, hp1, hp2⟩ := digitRun_split digit (c :: cs) hr
        have hcm : c ≠ '-' := by
          intro h; rw [h, show digit '-' = none from hd] at h2; simp at h2
        simp only [Option.some.injEq, Prod.mk.injEq]
        constructor
        · rintro ⟨rfl, rfl⟩
          refine ⟨[], post, ?_, hp2, by simp, by simp⟩
          simp only [signChars, Bool.false_eq_true, if_false, List.nil_append]
          exact hp1
        · rintro ⟨pre, post', h3, h4, h5, h6⟩
          cases pre with
          | cons p pre =>
            simp only [List.cons_append, List.cons.injEq] at h3
            rw [h3.1, h5 p (by simp)] at h2
            simp at h2
          | nil =>
            cases neg with
            | true =>
              simp only [signChars, if_true, List.nil_append, List.cons_append, List.cons.injEq] at h3
              exact absurd h3.1 hcm
            | false =>
              simp only [signChars, Bool.false_eq_true, if_false, List.nil_append] at h3
              rw [h3]
              exact ⟨rfl, digitRun_eq digit ds post' h4⟩
      · rw [if_neg h2]
        have hcn : digit c = none := by simpa using h2
        rw [ih]
        constructor
        · rintro ⟨pre, post, h3, h4, h5, h6⟩
          refine ⟨c :: pre, post, by simp [h3], h4, by simpa [hcn] using h5, ?_⟩
          intro hneg
          cases hpre : pre with
          | cons q pre' => simpa [hpre] using h6 hneg
          | nil =>
            simp only [List.getLast?_singleton, ne_eq, Option.some.injEq]
            intro hc
            apply h1
            refine ⟨hc, ?_⟩
            rw [h3, hneg, hpre]
            simp only [signChars, Bool.false_eq_true, if_false, List.nil_append]
            rw [digitRun_eq digit ds post h4]
            exact h4.1
        · rintro ⟨pre, post, h3, h4, h5, h6⟩
          cases pre with
          | nil =>
            cases neg with
            | true =>
              simp only [signChars, if_true, List.nil_append, List.cons_append, List.cons.injEq] at h3
              exact absurd ⟨h3.1, by rw [h3.2, digitRun_eq digit ds post h4]; exact h4.1⟩ h1
            | false =>
              simp only [signChars, Bool.false_eq_true, if_false, List.nil_append] at h3
              cases hds : ds with
              | nil => exact absurd hds h4.1
              | cons d ds' =>
                rw [hds] at h3
                simp only [List.cons_append, List.cons.injEq] at h3
                exact absurd (h3.1 ▸ hcn) (h4.2.1 d (by simp [hds]))
          | cons p pre =>
            simp only [List.cons_append, List.cons.injEq] at h3
            refine ⟨pre, post, h3.2, h4, fun x hx => h5 x (by simp [hx]), ?_⟩
            intro hneg
            cases hpre : pre with
            | nil => simp
            | cons q pre' => have := h6 hneg; rw [hpre] at this; simpa using this

/-- C47: no number is found exactly if the reply contains no digit. -/
theorem C47_none (digit : Char → Option Nat) (text : List Char) :
    searchInt digit text = none ↔ ∀ c ∈ text, digit c = none := by
  induction text with
  | nil => simp [searchInt]
  | cons c cs ih =>
    simp only [searchInt, List.mem_cons, forall_eq_or_imp]
    by_cases h1 : c = '-' ∧ digitRun digit cs ≠ []
    · rw [if_pos h1]
      simp only [reduceCtorEq, false_iff, not_and]
      intro _ h2
      apply h1.2
      cases cs with
      | nil => rfl
      | cons d cs => rw [digitRun, List.takeWhile_cons_of_neg (by simp [h2 d (by simp)])]
    · rw [if_neg h1]
      by_cases h2 : (digit c).isSome
      · rw [if_pos h2]
        simp only [reduceCtorEq, false_iff, not_and]
        intro h3
        rw [h3] at h2
        simp at h2
      · rw [if_neg h2, ih]
        simp only [Option.isSome_iff_ne_none, ne_eq, not_not] at h2
        simp [h2]

/-- C47: the number that is returned, for a reply whose first number has at most 4300 digits. -/
theorem C47_value_partial (digit : Char → Option Nat) (hd : DigitsOk digit) (pre ds post : List Char) (neg : Bool)
    (hrun : IsRun digit ds post) (hpre : ∀ c ∈ pre, digit c = none) (hsign : neg = false → pre.getLast? ≠ some '-')
    (hlen : ds.length ≤ 4300) :
    findFirstSignedInteger digit (pre ++ signChars neg ++ ds ++ post)
      = .ok (some (if neg then -(positional digit ds : Int) else (positional digit ds : Int))) := by
  rw [findFirstSignedInteger, (C47_first digit hd _ neg ds).2 ⟨pre, post, rfl, hrun, hpre, hsign⟩]
  simp only
  rw [if_neg (by simp only [maxStrDigits]; omega), digitsVal_eq]

/-- C47: a longer first number makes the conversion raise a `ValueError` instead. -/
theorem C47_long_violation (digit : Char → Option Nat) (hd : DigitsOk digit) (pre ds post : List Char) (neg : Bool)
    (hrun : IsRun digit ds post) (hpre : ∀ c ∈ pre, digit c = none) (hsign : neg = false → pre.getLast? ≠ some '-')
    (hlen : ds.length > 4300) :
    findFirstSignedInteger digit (pre ++ signChars neg ++ ds ++ post) = .error .valueError := by
  rw [findFirstSignedInteger, (C47_first digit hd _ neg ds).2 ⟨pre, post, rfl, hrun, hpre, hsign⟩]
  simp only
  rw [if_pos (by simp only [maxStrDigits]; omega)]

/-- The ASCII digits. -/
def asciiDigit (c : Char) : Option Nat := if '0' ≤ c ∧ c ≤ '9' then some (c.toNat - 48) else none

example : DigitsOk asciiDigit := by unfold DigitsOk; decide
example : findFirstSignedInteger asciiDigit "a--12b3".toList = .ok (some (-12)) := by decide +kernel
example : IsRun asciiDigit "12".toList "b3".toList := by
  refine ⟨by decide, by decide, ?_⟩
  intro c hc
  simp only [show "b3".toList = ['b', '3'] from rfl, List.head?_cons, Option.some.injEq] at hc
  subst hc
  decide
example : positional asciiDigit "120".toList = 120 := by decide

/-! ## C44: validation -/

/-- A value is a list of strings. -/
def IsStrings (v : Json) : Prop := ∃ ss : List String, v = .arr (ss.map .str)

theorem all_isStr (xs : List Json) : xs.all Json.isStr = true ↔ ∃ ss : List String, xs = ss.map .str := by
  induction xs with
  | nil => simp
  | cons x xs ih =>
    rw [List.all_cons, Bool.and_eq_true, ih]
    constructor
    · rintro ⟨h1, ss, h2⟩
      cases x with
      | str s => exact ⟨s :: ss, by simp [h2]⟩
      | _ => simp [Json.isStr] at h1
    · rintro ⟨ss, h⟩
      cases ss with
      | nil => simp at h
      | cons s ss =>
        simp only [List.map_cons, List.cons.injEq] at h
        exact ⟨by simp [h.1, Json.isStr], ss, h.2⟩

theorem allMemSet_strings (al : List String) (ss : List String) :
    allMemSet al (ss.map .str) = .ok (ss.all (fun s => al.contains s)) := by
  induction ss with
  | nil => rfl
  | cons s ss ih =>
    simp only [List.map_cons, allMemSet, memSet, ih, List.all_cons]

/-- What a statement list must look like. -/
def StatementsOk (d : Dict) (key : String) (allowed : Option (List String)) (len : Option Nat) : Prop :=
  ∃ ss : List String, d.get key = some (.arr (ss.map .str)) ∧ (∀ al, allowed = some al → ∀ s ∈ ss, s ∈ al) ∧
    (∀ n, len = some n → ss.length = n)

/-- C44: a reply passes `validate_statements` exactly if the key holds a list of strings of the demanded length
with allowed values only; in every other case an invalid-response error is raised. -/
theorem C44_statements (d : Dict) (key : String) (allowed : Option (List String)) (len : Option Nat) :
    (StatementsOk d key allowed len → validateStatements d key allowed len = .ok ()) ∧
    (¬ StatementsOk d key allowed len → validateStatements d key allowed len = .error .invalid) := by
  unfold StatementsOk validateStatements
  cases hg : d.get key with
  | none => simp
  | some v =>
    cases v with
    | arr xs =>
      simp only
      by_cases hs : xs.all Json.isStr = true
      · obtain ⟨ss, hss⟩ := (all_isStr xs).1 hs
        have hinj : ∀ ss' : List String, (some (Json.arr xs) = some (.arr (ss'.map .str))) → ss' = ss := by
          intro ss' h
          simp only [Option.some.injEq, Json.arr.injEq] at h
          rw [hss] at h
          exact (List.map_injective_iff.2 (fun a b h => by simpa using h) h).symm
        simp only [hs, Bool.not_true, Bool.false_eq_true, if_false]
        have hspec : (∃ ss' : List String, some (Json.arr xs) = some (.arr (ss'.map .str)) ∧
              (∀ al, allowed = some al → ∀ s ∈ ss', s ∈ al) ∧ (∀ n, len = some n → ss'.length = n)) ↔
            (∀ al, allowed = some al → ∀ s ∈ ss, s ∈ al) ∧ (∀ n, len = some n → ss.length = n) := by
          constructor
          · rintro ⟨ss', h1, h2⟩
            rw [hinj ss' h1] at h2
            exact h2
          · intro h
            exact ⟨ss, by rw [hss], h⟩
        rw [hspec]
        have hlen : xs.length = ss.length := by rw [hss, List.length_map]
        have hmem : ∀ al, allMemSet al xs = .ok (ss.all (fun s => al.contains s)) := by
          intro al; rw [hss, allMemSet_strings]
        cases allowed with
        | none =>
          cases len with
          | none => simp
          | some n =>
            by_cases hn : n = xs.length
            · simp [hn, hlen]
            · simp [hn]; omega
        | some al =>
          simp only [hmem]
          by_cases ha : ss.all (fun s => al.contains s) = true
          · have ha' : ∀ s ∈ ss, s ∈ al := by simpa using ha
            rw [ha]
            cases len with
            | none => exact ⟨fun _ => rfl, fun h => absurd ⟨by simpa using ha', by simp⟩ h⟩
            | some n =>
              simp only
              by_cases hn : n = xs.length
              · rw [if_neg (by simpa using hn)]
                exact ⟨fun _ => rfl, fun h => absurd ⟨by simpa using ha', by simp; omega⟩ h⟩
              · rw [if_pos hn]
                refine ⟨fun h => ?_, fun _ => rfl⟩
                have := h.2 n rfl
                omega
          · have ha' : ¬ ∀ s ∈ ss, s ∈ al := by simpa using ha
            have ha2 : (ss.all fun s => al.contains s) = false := by simpa using ha
            refine ⟨fun h => absurd (h.1 al rfl) ha', fun _ => ?_⟩
            rw [ha2]
      · have : ¬ ∃ ss : List String, xs = ss.map .str := fun h => hs ((all_isStr xs).2 h)
        simp only [Bool.not_eq_true] at hs
        simp only [hs, Bool.not_false, if_true, reduceCtorEq, Option.some.injEq, Json.arr.injEq, implies_true,
          and_true]
        rintro ⟨ss, h, -⟩
        exact absurd ⟨ss, h⟩ this
    | _ => simp

/-- What a verdict must look like: a dictionary with the two keys `verdict` and `analysis` and no other, whose
verdict is an allowed string. -/
def VerdictOk (allowed : List String) (v : Json) : Prop :=
  ∃ kvs : Dict, v = .obj kvs ∧ (∀ k, (Dict.get kvs k ≠ none ↔ k = "verdict" ∨ k = "analysis")) ∧
    ∃ s ∈ allowed, Dict.get kvs "verdict" = some (.str s)

/-- The verdict of an otherwise well formed entry is a list or a dictionary. -/
def Unhashable (v : Json) : Prop :=
  ∃ kvs : Dict, v = .obj kvs ∧ (∀ k, (Dict.get kvs k ≠ none ↔ k = "verdict" ∨ k = "analysis")) ∧
    ∃ x, Dict.get kvs "verdict" = some x ∧ ((∃ xs, x = .arr xs) ∨ ∃ o, x = .obj o)

theorem get_ne_none (d : Dict) (k : String) : d.get k ≠ none ↔ ∃ kv ∈ d, kv.1 = k := by
  unfold Dict.get
  rw [ne_eq, Option.map_eq_none_iff, List.find?_eq_none]
  constructor
  · intro h
    by_contra h2
    exact h (fun kv hkv h3 => h2 ⟨kv, hkv, by simpa using h3⟩)
  · rintro ⟨kv, h1, h2⟩ h3
    exact h3 kv h1 (by simpa using h2)

theorem keys_ok (kvs : Dict) :
    ((kvs.all (fun kv => kv.1 == "verdict" || kv.1 == "analysis")) && (Dict.get kvs "verdict").isSome
      && (Dict.get kvs "analysis").isSome) = true
      ↔ ∀ k, (Dict.get kvs k ≠ none ↔ k = "verdict" ∨ k = "analysis") := by
  rw [Bool.and_eq_true, Bool.and_eq_true, List.all_eq_true, Option.isSome_iff_ne_none, Option.isSome_iff_ne_none]
  constructor
  · rintro ⟨⟨h1, h2⟩, h3⟩ k
    constructor
    · intro h
      obtain ⟨kv, h4, h5⟩ := (get_ne_none kvs k).1 h
      have := h1 kv h4
      rw [h5] at this
      simpa using this
    · rintro (rfl | rfl)
      · exact h2
      · exact h3
  · intro h
    refine ⟨⟨?_, (h "verdict").2 (Or.inl rfl)⟩, (h "analysis").2 (Or.inr rfl)⟩
    intro kv hkv
    have := (h kv.1).1 ((get_ne_none kvs kv.1).2 ⟨kv, hkv, rfl⟩)
    simpa using this

theorem validateVerdict_spec (al : List String) (v : Json) :
    (VerdictOk al v → validateVerdict (some al) v = .ok ()) ∧
    (Unhashable v → validateVerdict (some al) v = .error .typeError) ∧
    (¬ VerdictOk al v → ¬ Unhashable v → validateVerdict (some al) v = .error .invalid) := by
  unfold VerdictOk Unhashable
  cases v with
  | obj kvs =>
    simp only [validateVerdict, Json.obj.injEq, exists_eq_left']
    have hk := keys_ok kvs
    by_cases hb : ((kvs.all (fun kv => kv.1 == "verdict" || kv.1 == "analysis")) && (Dict.get kvs "verdict").isSome
      && (Dict.get kvs "analysis").isSome) = true
    · have hk' := hk.1 hb
      simp only [hb, Bool.not_true, Bool.false_eq_true, if_false]
      have hv := (hk' "verdict").2 (Or.inl rfl)
      cases hg : Dict.get kvs "verdict" with
      | none => exact absurd hg hv
      | some x =>
        simp only
        refine ⟨?_, ?_, ?_⟩
        · rintro ⟨-, s, h1, h2⟩
          simp only [Option.some.injEq] at h2
          simp [h2, memSet, h1]
        · rintro ⟨-, y, h1, h2⟩
          simp only [Option.some.injEq] at h1
          subst h1
          rcases h2 with ⟨xs, rfl⟩ | ⟨o, rfl⟩ <;> simp [memSet]
        · intro h1 h2
          cases x with
          | arr xs => exact absurd ⟨hk', _, rfl, Or.inl ⟨xs, rfl⟩⟩ h2
          | obj o => exact absurd ⟨hk', _, rfl, Or.inr ⟨o, rfl⟩⟩ h2
          | str s =>
            have : s ∉ al := fun h => h1 ⟨hk', s, h, rfl⟩
            simp [memSet, this]
          | _ => simp [memSet]
    · have hk' : ¬ ∀ k, (Dict.get kvs k ≠ none ↔ k = "verdict" ∨ k = "analysis") := fun h => hb (hk.2 h)
      simp only [Bool.not_eq_true] at hb
      simp only [hb, Bool.not_false, if_true]
      exact ⟨fun h => absurd h.1 hk', fun h => absurd h.1 hk', fun _ _ => trivial⟩
  | _ => simp [validateVerdict]

theorem not_both (al : List String) (v : Json) (h : VerdictOk al v) : ¬ Unhashable v := by
  intro h2
  have h3 := (validateVerdict_spec al v).1 h
  have h4 := (validateVerdict_spec al v).2.1 h2
  rw [h3] at h4
  simp at h4

theorem validateEach_ok (al : List String) (xs : List Json) :
    validateEach (some al) xs = .ok () ↔ ∀ v ∈ xs, VerdictOk al v := by
  induction xs with
  | nil => simp [validateEach]
  | cons v vs ih =>
    obtain ⟨h1, h2, h3⟩ := validateVerdict_spec al v
    simp only [validateEach, List.mem_cons, forall_eq_or_imp]
    by_cases h : VerdictOk al v
    · simp only [h1 h, h, true_and, ih]
    · by_cases h' : Unhashable v
      · simp [h2 h', h]
      · simp [h3 h h', h]

theorem validateEach_error (al : List String) (xs : List Json) :
    (validateEach (some al) xs = .error .typeError ↔
      ∃ a v b, xs = a ++ v :: b ∧ (∀ x ∈ a, VerdictOk al x) ∧ Unhashable v) ∧
    (validateEach (some al) xs = .error .invalid ↔
      ∃ a v b, xs = a ++ v :: b ∧ (∀ x ∈ a, VerdictOk al x) ∧ ¬ VerdictOk al v ∧ ¬ Unhashable v) := by
  induction xs with
  | nil => simp [validateEach]
  | cons v vs ih =>
    obtain ⟨h1, h2, h3⟩ := validateVerdict_spec al v
    simp only [validateEach]
    by_cases h : VerdictOk al v
    · rw [h1 h]
      simp only [ih.1, ih.2]
      constructor
      · constructor
        · rintro ⟨a, x, b, h4, h5, h6⟩
          exact ⟨v :: a, x, b, by simp [h4], by simpa [h] using h5, h6⟩
        · rintro ⟨a, x, b, h4, h5, h6⟩
          cases a with
          | nil =>
            simp only [List.nil_append, List.cons.injEq] at h4
            exact absurd (h4.1 ▸ h6) (not_both al v h)
          | cons y a =>
            simp only [List.cons_append, List.cons.injEq] at h4
            exact ⟨a, x, b, h4.2, fun z hz => h5 z (by simp [hz]), h6⟩
      · constructor
        · rintro ⟨a, x, b, h4, h5, h6⟩
          exact ⟨v :: a, x, b, by simp [h4], by simpa [h] using h5, h6⟩
        · rintro ⟨a, x, b, h4, h5, h6⟩
          cases a with
          | nil =>
            simp only [List.nil_append, List.cons.injEq] at h4
            exact absurd (h4.1 ▸ h) h6.1
          | cons y a =>
            simp only [List.cons_append, List.cons.injEq] at h4
            exact ⟨a, x, b, h4.2, fun z hz => h5 z (by simp [hz]), h6⟩
    · have hfirst : ∀ {P : Json → Prop}, (∃ a x b, v :: vs = a ++ x :: b ∧ (∀ z ∈ a, VerdictOk al z) ∧ P x) ↔ P v := by
        intro P
        constructor
        · rintro ⟨a, x, b, h4, h5, h6⟩
          cases a with
          | nil =>
            simp only [List.nil_append, List.cons.injEq] at h4
            exact h4.1 ▸ h6
          | cons y a =>
            simp only [List.cons_append, List.cons.injEq] at h4
            exact absurd (h4.1 ▸ h5 y (by simp)) h
        · intro hp
          exact ⟨[], v, vs, rfl, by simp, hp⟩
      rw [hfirst, hfirst]
      by_cases h' : Unhashable v
      · simp [h2 h', h']
      · simp [h3 h h', h, h']

/-- C44: a reply passes `validate_verdicts` exactly if the key holds a list of well formed verdicts of the demanded
length with allowed values. -/
theorem C44_verdicts (d : Dict) (key : String) (al : List String) (n : Nat) :
    validateVerdicts d key (some al) (some n) = .ok () ↔
      ∃ xs, d.get key = some (.arr xs) ∧ xs.length = n ∧ ∀ v ∈ xs, VerdictOk al v := by
  unfold validateVerdicts
  cases hg : d.get key with
  | none => simp
  | some v =>
    cases v with
    | arr xs =>
      simp only [Option.some.injEq, Json.arr.injEq, exists_eq_left']
      by_cases hn : n = xs.length
      · simp only [hn, ne_eq, not_true_eq_false, if_false, true_and, validateEach_ok]
      · simp only [ne_eq, hn, not_false_eq_true, if_true, reduceCtorEq, false_iff, not_and]
        intro h; omega
    | _ => simp

/-- C44, rejections: unless an entry holds a list or a dictionary as its verdict, a reply that does not pass raises
an invalid-response error. -/
theorem C44_rejects_partial (d : Dict) (key : String) (al : List String) (n : Nat)
    (hbad : ¬ ∃ xs, d.get key = some (.arr xs) ∧ xs.length = n ∧ ∀ v ∈ xs, VerdictOk al v)
    (hash : ∀ xs, d.get key = some (.arr xs) → ∀ v ∈ xs, ¬ Unhashable v) :
    validateVerdicts d key (some al) (some n) = .error .invalid := by
  have h0 := mt (C44_verdicts d key al n).1 hbad
  unfold validateVerdicts at h0 ⊢
  cases hg : d.get key with
  | none => rfl
  | some v =>
    rw [hg] at h0
    cases v with
    | arr xs =>
      simp only at h0 ⊢
      by_cases hn : n = xs.length
      · simp only [hn, ne_eq, not_true_eq_false, if_false] at h0 ⊢
        rw [validateEach_ok] at h0
        have hx := hash xs hg
        rw [(validateEach_error al xs).2]
        clear hg hash hbad hn
        induction xs with
        | nil => simp at h0
        | cons v vs ih =>
          by_cases hv : VerdictOk al v
          · obtain ⟨a, x, b, h4, h5, h6⟩ := ih (by simpa [hv] using h0) (fun z hz => hx z (by simp [hz]))
            exact ⟨v :: a, x, b, by simp [h4], by simpa [hv] using h5, h6⟩
          · exact ⟨[], v, vs, rfl, by simp, hv, hx v (by simp)⟩
      · simp [hn]
    | _ => rfl

/-- C44 is false in general: a verdict that is a list is not reported as an invalid response, the check itself
raises a `TypeError`. -/
theorem C44_violation :
    validateVerdicts [("verdicts", .arr [.obj [("verdict", .arr []), ("analysis", .str "")]])] "verdicts"
      (some ["yes", "no"]) (some 1) = .error .typeError := by
  simp [validateVerdicts, Dict.get, validateEach, validateVerdict, memSet]

/-- A well formed reply. -/
def goodVerdicts : Dict :=
  [("verdicts", .arr [.obj [("verdict", .str "yes"), ("analysis", .str "a")], .obj [("analysis", .null), ("verdict", .str "no")]])]

example : validateVerdicts goodVerdicts "verdicts" (some ["yes", "no"]) (some 2) = .ok () := by
  simp [goodVerdicts, validateVerdicts, Dict.get, validateEach, validateVerdict, memSet]

example : StatementsOk [("claims", .arr [.str "a", .str "b"])] "claims" none none :=
  ⟨["a", "b"], rfl, by simp, by simp⟩

end Verif.TextGen
