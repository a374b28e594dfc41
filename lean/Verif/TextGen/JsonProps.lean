import Verif.TextGen.Json
import Verif.TextGen.CrashProps
import Mathlib.Tactic.IntervalCases

/-!
# JSON texts

The grammar of JSON (RFC 8259, with Python's `NaN` and infinities) as relations between texts and values, and the proof that the
decoder computes exactly this relation.
-/

namespace Verif.TextGen

/-- Only blanks, tabs, line feeds and carriage returns. -/
def Ws (cs : List Char) : Prop := ∀ c ∈ cs, c = ' ' ∨ c = '\t' ∨ c = '\n' ∨ c = '\r'

/-- `c` is the hexadecimal digit of value `n`. -/
def HexVal (c : Char) (n : Nat) : Prop := "0123456789abcdef".toList[n]? = some c ∨ "0123456789ABCDEF".toList[n]? = some c

/-- The text between the quotes of a string literal, and its code points. -/
inductive StrBody : List Char → List Nat → Prop
  | nil : StrBody [] []
  | plain {c : Char} {cs : List Char} {us : List Nat} : c ≠ '"' → c ≠ '\\' → 32 ≤ c.toNat → StrBody cs us →
      StrBody (c :: cs) (c.toNat :: us)
  | short {c : Char} {n : Nat} {cs : List Char} {us : List Nat} :
      (c, n) ∈ [('"', 34), ('\\', 92), ('/', 47), ('b', 8), ('f', 12), ('n', 10), ('r', 13), ('t', 9)] → StrBody cs us →
      StrBody ('\\' :: c :: cs) (n :: us)
  | long {a b c d : Char} {w x y z : Nat} {cs : List Char} {us : List Nat} : HexVal a w → HexVal b x → HexVal c y → HexVal d z →
      StrBody cs us → StrBody ('\\' :: 'u' :: a :: b :: c :: d :: cs) ((((w * 16 + x) * 16 + y) * 16 + z) :: us)

/-- `u` is one half of a surrogate pair. -/
def Surrogate (u : Nat) : Prop := 0xD800 ≤ u ∧ u ≤ 0xDFFF

/-- The string of a sequence of code points in UTF-16 style: a high and a low surrogate in succession are one character, every
other surrogate is the replacement character. -/
inductive Joined : List Nat → List Char → Prop
  | nil : Joined [] []
  | char {c : Char} {us : List Nat} {cs : List Char} : Joined us cs → Joined (c.toNat :: us) (c :: cs)
  | pair {h l : Nat} {us : List Nat} {cs : List Char} : h < 1024 → l < 1024 → Joined us cs →
      Joined ((0xD800 + h) :: (0xDC00 + l) :: us) (Char.ofNat (0x10000 + h * 1024 + l) :: cs)
  | lone {u : Nat} {us : List Nat} {cs : List Char} : Surrogate u →
      (u < 0xDC00 → ∀ (l : Nat), l < 1024 → us.head? ≠ some (0xDC00 + l)) → Joined us cs → Joined (u :: us) ('\uFFFD' :: cs)

/-- One or more ASCII digits. -/
def Digits (cs : List Char) : Prop := cs ≠ [] ∧ ∀ c ∈ cs, '0' ≤ c ∧ c ≤ '9'

/-- A number: sign, digits without a superfluous zero, fraction, exponent. Whole numbers have at most 4300 digits. -/
def NumText (t : List Char) : Prop :=
  ∃ sign whole frac exp, t = sign ++ whole ++ frac ++ exp ∧ (sign = [] ∨ sign = ['-']) ∧
    Digits whole ∧ (whole = ['0'] ∨ whole.head? ≠ some '0') ∧
    (frac = [] ∨ ∃ ds, frac = '.' :: ds ∧ Digits ds) ∧
    (exp = [] ∨ ∃ e s ds, exp = e :: s ++ ds ∧ (e = 'e' ∨ e = 'E') ∧ (s = [] ∨ s = ['+'] ∨ s = ['-']) ∧ Digits ds) ∧
    (frac = [] → exp = [] → whole.length ≤ 4300)

/-- Texts of strings, numbers and names. -/
inductive IsScalar : List Char → Json → Prop
  | str {k : List Char} {us : List Nat} {cs : List Char} : StrBody k us → Joined us cs →
      IsScalar ('"' :: k ++ ['"']) (.str (String.ofList cs))
  | num {t : List Char} : NumText t → IsScalar t (.num 0)
  | null : IsScalar "null".toList .null
  | true : IsScalar "true".toList (.bool true)
  | false : IsScalar "false".toList (.bool false)
  | nan : IsScalar "NaN".toList (.num 0)
  | inf : IsScalar "Infinity".toList (.num 0)
  | ninf : IsScalar "-Infinity".toList (.num 0)

/-- The elements of an array, separated by commas; `P` relates the text of an element to its value. -/
inductive Items (P : List Char → Json → Prop) : List Char → List Json → Prop
  | one {a t b : List Char} {v : Json} : Ws a → P t v → Ws b → Items P (a ++ t ++ b) [v]
  | more {a t b r : List Char} {v : Json} {vs : List Json} : Ws a → P t v → Ws b → Items P r vs →
      Items P (a ++ t ++ b ++ ',' :: r) (v :: vs)

/-- A member of an object: key, colon, value. -/
def Member (P : List Char → Json → Prop) (t : List Char) (m : String × Json) : Prop :=
  ∃ a k us cs b c u d, t = a ++ '"' :: k ++ '"' :: b ++ ':' :: c ++ u ++ d ∧ Ws a ∧ StrBody k us ∧ Joined us cs ∧ Ws b ∧ Ws c ∧
    P u m.2 ∧ Ws d ∧ m.1 = String.ofList cs

/-- The members of an object, separated by commas. -/
inductive Members (P : List Char → Json → Prop) : List Char → List (String × Json) → Prop
  | one {t : List Char} {m : String × Json} : Member P t m → Members P t [m]
  | more {t r : List Char} {m : String × Json} {ms : List (String × Json)} : Member P t m → Members P r ms →
      Members P (t ++ ',' :: r) (m :: ms)

/-- `t` is a JSON text of the value `v`, with at most `depth` arrays and objects inside of each other. -/
def IsValue : Nat → List Char → Json → Prop
  | 0, t, v => IsScalar t v
  | depth + 1, t, v =>
    IsScalar t v ∨
    (∃ a, t = '[' :: a ++ [']'] ∧ Ws a ∧ v = .arr []) ∨
    (∃ a vs, t = '[' :: a ++ [']'] ∧ Items (IsValue depth) a vs ∧ v = .arr vs) ∨
    (∃ a, t = '{' :: a ++ ['}'] ∧ Ws a ∧ v = .obj []) ∨
    (∃ a ms, t = '{' :: a ++ ['}'] ∧ Members (IsValue depth) a ms ∧ v = .obj (Verif.Shared.dictOf ms))

/-! ## Whitespace -/

theorem isWs_iff (c : Char) : isWs c = true ↔ c = ' ' ∨ c = '\t' ∨ c = '\n' ∨ c = '\r' := by
  simp only [isWs, Bool.or_eq_true, beq_iff_eq, or_assoc]

theorem skipWs_append {a : List Char} (h : Ws a) (r : List Char) : skipWs (a ++ r) = skipWs r := by
  induction a with
  | nil => rfl
  | cons c a ih =>
    have : isWs c = true := (isWs_iff c).2 (h c (by simp))
    rw [List.cons_append, skipWs, List.dropWhile_cons, if_pos this]
    exact ih (fun x hx => h x (by simp [hx]))

theorem skipWs_cons {c : Char} (h : isWs c = false) (r : List Char) : skipWs (c :: r) = c :: r := by
  rw [skipWs, List.dropWhile_cons, if_neg (by rw [h]; simp)]

theorem skipWs_split (cs : List Char) : ∃ a, cs = a ++ skipWs cs ∧ Ws a :=
  ⟨cs.takeWhile isWs, (List.takeWhile_append_dropWhile).symm, fun c hc => (isWs_iff c).1 (List.mem_takeWhile_imp hc)⟩

theorem skipWs_eq {cs r : List Char} {c : Char} (h : skipWs cs = c :: r) : ∃ a, cs = a ++ c :: r ∧ Ws a := by
  obtain ⟨a, h1, h2⟩ := skipWs_split cs
  exact ⟨a, by rw [← h]; exact h1, h2⟩

theorem skipWs_nil {a : List Char} (h : Ws a) : skipWs a = [] := by
  have := skipWs_append h []
  rw [List.append_nil] at this
  rw [this]; rfl

theorem ws_of_skipWs_nil {a : List Char} (h : skipWs a = []) : Ws a := by
  obtain ⟨b, h1, h2⟩ := skipWs_split a
  rw [h, List.append_nil] at h1
  rw [h1]; exact h2

/-! ## Strings -/

theorem escapeOf_iff (c : Char) (n : Nat) : escapeOf c = some n ↔
    (c, n) ∈ [('"', 34), ('\\', 92), ('/', 47), ('b', 8), ('f', 12), ('n', 10), ('r', 13), ('t', 9)] := by
  simp only [List.mem_cons, Prod.mk.injEq, List.not_mem_nil, or_false]
  unfold escapeOf
  split_ifs with h1 h2 h3 h4 h5 h6 h7 h8 <;> (try subst c) <;> simp_all [eq_comm]

theorem hexDigit_iff (c : Char) (n : Nat) : hexDigit c = some n ↔ HexVal c n := by
  constructor
  · intro h
    have hc : c = Char.ofNat c.toNat := (Char.ofNat_toNat c).symm
    unfold hexDigit at h
    split_ifs at h with h1 h2 h3
    · simp only [Option.some.injEq] at h
      obtain ⟨ha, hb⟩ := h1
      have ha' : 48 ≤ c.toNat := ha
      have hb' : c.toNat ≤ 57 := hb
      generalize c.toNat = k at *
      subst hc h
      interval_cases k <;> (unfold HexVal; decide)
    · simp only [Option.some.injEq] at h
      obtain ⟨ha, hb⟩ := h2
      have ha' : 97 ≤ c.toNat := ha
      have hb' : c.toNat ≤ 102 := hb
      generalize c.toNat = k at *
      subst hc h
      interval_cases k <;> (unfold HexVal; decide)
    · simp only [Option.some.injEq] at h
      obtain ⟨ha, hb⟩ := h3
      have ha' : 65 ≤ c.toNat := ha
      have hb' : c.toNat ≤ 70 := hb
      generalize c.toNat = k at *
      subst hc h
      interval_cases k <;> (unfold HexVal; decide)
  · intro h
    have hn : n < 16 := by
      rcases h with h | h <;> exact (List.getElem?_eq_some_iff.1 h).1
    rcases h with h | h <;> interval_cases n <;> (simp at h; subst h; decide)

theorem hex4_iff (a b c d : Char) (n : Nat) : hex4 a b c d = some n ↔
    ∃ w x y z, HexVal a w ∧ HexVal b x ∧ HexVal c y ∧ HexVal d z ∧ n = ((w * 16 + x) * 16 + y) * 16 + z := by
  simp only [← hexDigit_iff]
  unfold hex4
  split
  · rename_i w x y z h1 h2 h3 h4
    rw [h1, h2, h3, h4]
    simp only [Option.some.injEq]
    constructor
    · intro h; exact ⟨w, x, y, z, rfl, rfl, rfl, rfl, by omega⟩
    · rintro ⟨w, x, y, z, rfl, rfl, rfl, rfl, rfl⟩; omega
  · rename_i h
    simp only [reduceCtorEq, false_iff]
    rintro ⟨w, x, y, z, h1, h2, h3, h4, -⟩
    exact h w x y z h1 h2 h3 h4

theorem char_not_surrogate (c : Char) : ¬ (0xD800 ≤ c.toNat ∧ c.toNat < 0xE000) := by
  have h : c.toNat < 0xd800 ∨ (0xdfff < c.toNat ∧ c.toNat < 0x110000) := c.valid
  omega

theorem joinUnits_complete {us : List Nat} {cs : List Char} (h : Joined us cs) : joinUnits us = cs := by
  induction h with
  | nil => rfl
  | @char c us cs h ih =>
    have := char_not_surrogate c
    cases us with
    | nil =>
      rw [← ih]
      simp only [joinUnits]
      rw [if_neg this, Char.ofNat_toNat]
    | cons v us =>
      rw [joinUnits, if_neg (by omega), if_neg this, Char.ofNat_toNat, ih]
  | @pair h l us cs hh hl _ ih =>
    simp only [joinUnits]
    rw [if_pos (by omega), ih, Nat.add_sub_cancel_left, Nat.add_sub_cancel_left]
  | @lone u us cs hs hn _ ih =>
    have hs1 := hs.1
    have hs2 := hs.2
    cases us with
    | nil =>
      rw [← ih]
      simp only [joinUnits]
      rw [if_pos (by omega)]
    | cons v us =>
      simp only [joinUnits]
      rw [if_neg, if_pos (by omega), ih]
      rintro ⟨h1, h2, h3, h4⟩
      refine hn h2 (v - 0xDC00) (by omega) ?_
      simp only [List.head?_cons, Option.some.injEq]; omega

theorem joinUnits_sound (us : List Nat) (h : ∀ u ∈ us, u < 0x110000) : Joined us (joinUnits us) := by
  have hval : ∀ u, u < 0x110000 → ¬ (0xD800 ≤ u ∧ u < 0xE000) → (Char.ofNat u).toNat = u := by
    intro u h1 h2
    have hv : u.isValidChar := by
      unfold Nat.isValidChar; omega
    simp [Char.ofNat, hv, Char.toNat, Char.ofNatAux, UInt32.toNat]
  fun_induction joinUnits us with
  | case1 => exact .nil
  | case2 u =>
    split_ifs with h1
    · exact .lone ⟨h1.1, by omega⟩ (by simp) .nil
    · have := Joined.char (c := Char.ofNat u) .nil
      rwa [hval u (h u (by simp)) h1] at this
  | case3 u v us h1 ih =>
    have ih := ih (fun x hx => h x (by simp [hx]))
    obtain ⟨a, rfl⟩ : ∃ a, u = 0xD800 + a := ⟨u - 0xD800, by omega⟩
    obtain ⟨b, rfl⟩ : ∃ b, v = 0xDC00 + b := ⟨v - 0xDC00, by omega⟩
    rw [Nat.add_sub_cancel_left, Nat.add_sub_cancel_left]
    exact .pair (by omega) (by omega) ih
  | case4 u v us h1 ih =>
    have ih := ih (fun x hx => h x (List.mem_cons_of_mem _ hx))
    split_ifs with h2
    · refine .lone ⟨h2.1, by omega⟩ ?_ ih
      intro h3 l hl he
      simp only [List.head?_cons, Option.some.injEq] at he
      exact h1 ⟨h2.1, h3, by omega, by omega⟩
    · have := Joined.char (c := Char.ofNat u) ih
      rwa [hval u (h u (by simp)) h2] at this

theorem strBody_lt {k : List Char} {us : List Nat} (h : StrBody k us) : ∀ u ∈ us, u < 0x110000 := by
  induction h with
  | nil => simp
  | @plain c cs us h1 h2 h3 h4 ih =>
    have h : c.toNat < 0xd800 ∨ (0xdfff < c.toNat ∧ c.toNat < 0x110000) := c.valid
    intro u hu
    rcases List.mem_cons.1 hu with rfl | hu
    · omega
    · exact ih u hu
  | @short c n cs us h1 h2 ih =>
    intro u hu
    rcases List.mem_cons.1 hu with rfl | hu
    · simp only [List.mem_cons, Prod.mk.injEq, List.not_mem_nil, or_false] at h1
      omega
    · exact ih u hu
  | @long a b c d w x y z cs us h1 h2 h3 h4 h5 ih =>
    have key : ∀ {c n}, HexVal c n → n < 16 := by
      intro c n h
      rcases h with h | h <;> exact (List.getElem?_eq_some_iff.1 h).1
    have k1 := key h1
    have k2 := key h2
    have k3 := key h3
    have k4 := key h4
    intro u hu
    rcases List.mem_cons.1 hu with rfl | hu
    · omega
    · exact ih u hu

theorem stringOf_iff {k : List Char} {us : List Nat} (h : StrBody k us) (s : String) :
    s = stringOf us ↔ ∃ cs, Joined us cs ∧ s = String.ofList cs := by
  constructor
  · intro e; exact ⟨_, joinUnits_sound us (strBody_lt h), e⟩
  · rintro ⟨cs, h1, rfl⟩; rw [stringOf, joinUnits_complete h1]

theorem stringUnits_complete {k : List Char} {us : List Nat} (h : StrBody k us) (r : List Char) :
    stringUnits (k ++ '"' :: r) = some (us, r) := by
  induction h with
  | nil => rfl
  | @plain c cs us h1 h2 h3 h4 ih =>
    rw [List.cons_append, stringUnits]
    · rw [if_neg (by rintro (h | h); exact h2 h; omega), ih]
    · exact fun e => h1 e
    · intro a b c d r h; exact absurd h h2
    · intro a r h; exact absurd h h2
  | @short c n cs us h1 h2 ih =>
    have hu : c ≠ 'u' := by
      rintro rfl
      simp at h1
    rw [List.cons_append, List.cons_append, stringUnits]
    · rw [(escapeOf_iff c n).2 h1]; simp only [ih]
    · intro a b c d r h; exact absurd h hu
  | @long a b c d w x y z cs us h1 h2 h3 h4 h5 ih =>
    simp only [List.cons_append]
    rw [stringUnits, (hex4_iff a b c d _).2 ⟨w, x, y, z, h1, h2, h3, h4, rfl⟩]
    simp only [ih]

theorem stringUnits_sound (cs : List Char) {us : List Nat} {r : List Char} (h : stringUnits cs = some (us, r)) :
    ∃ k, cs = k ++ '"' :: r ∧ StrBody k us := by
  fun_induction stringUnits cs generalizing us r with
  | case1 => simp at h
  | case2 r' =>
    simp only [Option.some.injEq, Prod.mk.injEq] at h
    obtain ⟨rfl, rfl⟩ := h
    exact ⟨[], rfl, .nil⟩
  | case3 => simp at h
  | case4 => simp at h
  | case5 a b c d r1 n hn us' r' hs ih =>
    simp only [Option.some.injEq, Prod.mk.injEq] at h
    obtain ⟨rfl, rfl⟩ := h
    obtain ⟨k, h1, h2⟩ := ih hs
    obtain ⟨w, x, y, z, k1, k2, k3, k4, rfl⟩ := (hex4_iff a b c d n).1 hn
    exact ⟨_, by rw [h1]; simp only [List.cons_append], .long k1 k2 k3 k4 h2⟩
  | case6 => simp at h
  | case7 => simp at h
  | case8 e r1 _ n hn us' r' hs ih =>
    simp only [Option.some.injEq, Prod.mk.injEq] at h
    obtain ⟨rfl, rfl⟩ := h
    obtain ⟨k, h1, h2⟩ := ih hs
    exact ⟨_, by rw [h1]; simp only [List.cons_append], .short ((escapeOf_iff _ _).1 hn) h2⟩
  | case9 => simp at h
  | case10 => simp at h
  | case11 c r1 hq _ _ hc us' r' hs ih =>
    simp only [Option.some.injEq, Prod.mk.injEq] at h
    obtain ⟨rfl, rfl⟩ := h
    obtain ⟨k, h1, h2⟩ := ih hs
    rw [not_or, not_lt] at hc
    exact ⟨_, by rw [h1]; simp only [List.cons_append], .plain (fun e => hq e) hc.1 hc.2 h2⟩

/-! ## Numbers -/

/-- Nothing, or a character that may follow a value: whitespace, a comma, a closing bracket or brace. -/
def Ends (r : List Char) : Prop := ∀ c, r.head? = some c → c = ' ' ∨ c = '\t' ∨ c = '\n' ∨ c = '\r' ∨ c = ',' ∨ c = ']' ∨ c = '}'

theorem isDec_iff (c : Char) : isDec c = true ↔ '0' ≤ c ∧ c ≤ '9' := by simp [isDec]

theorem dec_run {ds r : List Char} (h : ∀ c ∈ ds, '0' ≤ c ∧ c ≤ '9') (hr : ∀ c, r.head? = some c → isDec c = false) :
    (ds ++ r).takeWhile isDec = ds ∧ (ds ++ r).dropWhile isDec = r := by
  induction ds with
  | nil =>
    cases r with
    | nil => simp
    | cons x r => simp [hr x rfl]
  | cons c ds ih =>
    have hc := (isDec_iff c).2 (h c (by simp))
    simp [hc, ih (fun x hx => h x (by simp [hx]))]

theorem dec_split (cs : List Char) : ∀ c ∈ cs.takeWhile isDec, '0' ≤ c ∧ c ≤ '9' :=
  fun c hc => (isDec_iff c).1 (List.mem_takeWhile_imp hc)

theorem ends_not {r : List Char} (h : Ends r) (p : Char → Prop) (hp : ¬ p ' ' ∧ ¬ p '\t' ∧ ¬ p '\n' ∧ ¬ p '\r' ∧ ¬ p ',' ∧ ¬ p ']' ∧ ¬ p '}') :
    ∀ c, r.head? = some c → ¬ p c := by
  intro c hc
  obtain ⟨a1, a2, a3, a4, a5, a6, a7⟩ := hp
  rcases h c hc with rfl | rfl | rfl | rfl | rfl | rfl | rfl <;> assumption

theorem ends_dec {r : List Char} (h : Ends r) : ∀ c, r.head? = some c → isDec c = false := by
  intro c hc
  have := ends_not h (fun c => isDec c = true) (by decide) c hc
  simpa using this

theorem fraction_complete {f r : List Char} (hf : f = [] ∨ ∃ ds, f = '.' :: ds ∧ Digits ds)
    (hr : ∀ c, r.head? = some c → isDec c = false ∧ c ≠ '.') : fraction (f ++ r) = (f, r) := by
  rcases hf with rfl | ⟨ds, rfl, h1, h2⟩
  · cases r with
    | nil => rfl
    | cons c r =>
      have := (hr c rfl).2
      rw [List.nil_append, fraction]
      intro r' e
      simp only [List.cons.injEq] at e
      exact this e.1
  · obtain ⟨k1, k2⟩ := dec_run h2 (fun c hc => (hr c hc).1)
    simp only [List.cons_append, fraction]
    rw [k1, k2, if_neg h1]

theorem exponent_complete {e r : List Char}
    (he : e = [] ∨ ∃ c s ds, e = c :: s ++ ds ∧ (c = 'e' ∨ c = 'E') ∧ (s = [] ∨ s = ['+'] ∨ s = ['-']) ∧ Digits ds)
    (hr : Ends r) : exponent (e ++ r) = (e, r) := by
  rcases he with rfl | ⟨c, s, ds, rfl, hc, hs, h1, h2⟩
  · cases r with
    | nil => rfl
    | cons c r =>
      have := ends_not hr (fun c => c = 'e' ∨ c = 'E') (by decide) c rfl
      simp only [List.nil_append, exponent]
      rw [if_neg this]
  · obtain ⟨k1, k2⟩ := dec_run h2 (ends_dec hr)
    rcases hs with rfl | rfl | rfl
    · obtain ⟨d, ds', rfl⟩ := List.exists_cons_of_ne_nil h1
      have hd := h2 d (by simp)
      have hd' : ¬ (d = '+' ∨ d = '-') := by
        rintro (rfl | rfl) <;> exact absurd hd (by decide)
      simp only [List.cons_append, List.nil_append] at k1 k2 ⊢
      simp only [exponent]
      rw [if_pos hc, if_neg hd', exponentDigits, k1, k2, if_neg h1]
      rfl
    · simp only [List.cons_append, List.nil_append, exponent]
      rw [if_pos hc, if_pos (Or.inl trivial), exponentDigits, k1, k2, if_neg h1]
      rfl
    · simp only [List.cons_append, List.nil_append, exponent]
      rw [if_pos hc, if_pos (Or.inr trivial), exponentDigits, k1, k2, if_neg h1]
      rfl

theorem wholePart_complete {w r : List Char} (hw : Digits w) (h0 : w = ['0'] ∨ w.head? ≠ some '0')
    (hr : ∀ c, r.head? = some c → isDec c = false) : wholePart (w ++ r) = some (w, r) := by
  rcases h0 with rfl | h0
  · rfl
  · obtain ⟨h1, h2⟩ := hw
    obtain ⟨d, ds, rfl⟩ := List.exists_cons_of_ne_nil h1
    obtain ⟨k1, k2⟩ := dec_run (fun c hc => h2 c (List.mem_cons_of_mem _ hc)) hr
    rw [List.cons_append, wholePart, if_pos ((isDec_iff d).2 (h2 d (by simp))), k1, k2]
    intro e
    exact h0 (by simp [e])

/-- A number without its sign. -/
def Unsigned (t : List Char) : Prop :=
  ∃ whole frac exp, t = whole ++ frac ++ exp ∧
    Digits whole ∧ (whole = ['0'] ∨ whole.head? ≠ some '0') ∧
    (frac = [] ∨ ∃ ds, frac = '.' :: ds ∧ Digits ds) ∧
    (exp = [] ∨ ∃ e s ds, exp = e :: s ++ ds ∧ (e = 'e' ∨ e = 'E') ∧ (s = [] ∨ s = ['+'] ∨ s = ['-']) ∧ Digits ds) ∧
    (frac = [] → exp = [] → whole.length ≤ 4300)

theorem numText_iff (t : List Char) : NumText t ↔ Unsigned t ∨ ∃ u, t = '-' :: u ∧ Unsigned u := by
  constructor
  · rintro ⟨s, w, f, e, rfl, rfl | rfl, h⟩
    · exact Or.inl ⟨w, f, e, by simp, h⟩
    · exact Or.inr ⟨w ++ f ++ e, by simp, w, f, e, rfl, h⟩
  · rintro (⟨w, f, e, rfl, h⟩ | ⟨u, rfl, w, f, e, rfl, h⟩)
    · exact ⟨[], w, f, e, by simp, Or.inl rfl, h⟩
    · exact ⟨['-'], w, f, e, by simp, Or.inr rfl, h⟩

theorem unsigned_complete {t r : List Char} (h : Unsigned t) (hr : Ends r) : unsigned (t ++ r) = .ok (.num 0, r) := by
  obtain ⟨w, f, e, rfl, h1, h2, h3, h4, h5⟩ := h
  have hE : ∀ c, (e ++ r).head? = some c → isDec c = false ∧ c ≠ '.' := by
    intro c hc
    rcases h4 with rfl | ⟨c', s, ds, rfl, hc', -⟩
    · exact ⟨ends_dec hr c hc, ends_not hr (· = '.') (by decide) c hc⟩
    · simp only [List.cons_append, List.head?_cons, Option.some.injEq] at hc
      subst hc
      rcases hc' with rfl | rfl <;> decide
  have hF : ∀ c, (f ++ (e ++ r)).head? = some c → isDec c = false := by
    intro c hc
    rcases h3 with rfl | ⟨ds, rfl, -⟩
    · exact (hE c hc).1
    · simp only [List.cons_append, List.head?_cons, Option.some.injEq] at hc
      subst hc; decide
  rw [List.append_assoc, List.append_assoc, unsigned, wholePart_complete h1 h2 hF]
  simp only
  rw [fraction_complete h3 hE]
  simp only
  rw [exponent_complete h4 hr]
  simp only
  rw [if_neg]
  rintro ⟨k1, k2, k3⟩
  exact absurd (h5 k1 k2) (by simpa [maxStrDigits] using k3)

theorem fraction_sound (cs : List Char) : ∃ f r, fraction cs = (f, r) ∧ cs = f ++ r ∧ (f = [] ∨ ∃ ds, f = '.' :: ds ∧ Digits ds) := by
  fun_cases fraction cs with
  | case1 r h => exact ⟨_, _, rfl, rfl, Or.inl rfl⟩
  | case2 r h =>
    exact ⟨_, _, rfl, by rw [List.cons_append, List.takeWhile_append_dropWhile], Or.inr ⟨_, rfl, h, dec_split r⟩⟩
  | case3 => exact ⟨_, _, rfl, rfl, Or.inl rfl⟩

theorem exponent_sound (cs : List Char) : ∃ e r, exponent cs = (e, r) ∧ cs = e ++ r ∧
    (e = [] ∨ ∃ c s ds, e = c :: s ++ ds ∧ (c = 'e' ∨ c = 'E') ∧ (s = [] ∨ s = ['+'] ∨ s = ['-']) ∧ Digits ds) := by
  fun_cases exponent cs with
  | case1 c hc s r h =>
    rw [exponentDigits]
    split_ifs with hd
    · exact ⟨_, _, rfl, rfl, Or.inl rfl⟩
    · refine ⟨_, _, rfl, by simp, Or.inr ⟨c, [s], _, rfl, hc, ?_, hd, dec_split r⟩⟩
      rcases h with rfl | rfl
      · exact Or.inr (Or.inl rfl)
      · exact Or.inr (Or.inr rfl)
  | case2 c hc s r h =>
    rw [exponentDigits]
    split_ifs with hd
    · exact ⟨_, _, rfl, rfl, Or.inl rfl⟩
    · refine ⟨_, _, rfl, by simp, Or.inr ⟨c, [], _, rfl, hc, Or.inl rfl, hd, dec_split _⟩⟩
  | case3 => exact ⟨_, _, rfl, rfl, Or.inl rfl⟩
  | case4 => exact ⟨_, _, rfl, rfl, Or.inl rfl⟩
  | case5 => exact ⟨_, _, rfl, rfl, Or.inl rfl⟩

theorem wholePart_sound {cs w r : List Char} (h : wholePart cs = some (w, r)) :
    cs = w ++ r ∧ Digits w ∧ (w = ['0'] ∨ w.head? ≠ some '0') := by
  fun_cases wholePart cs with
  | case1 r' =>
    simp only [wholePart, Option.some.injEq, Prod.mk.injEq] at h
    obtain ⟨rfl, rfl⟩ := h
    exact ⟨rfl, ⟨by simp, by simp⟩, Or.inl rfl⟩
  | case2 c r' h0 hc =>
    rw [wholePart, if_pos hc] at h
    · simp only [Option.some.injEq, Prod.mk.injEq] at h
      obtain ⟨rfl, rfl⟩ := h
      refine ⟨by simp, ⟨by simp, ?_⟩, Or.inr (by simpa using h0)⟩
      intro x hx
      rcases List.mem_cons.1 hx with rfl | hx
      · exact (isDec_iff x).1 hc
      · exact dec_split r' x hx
    · exact h0
  | case3 c r' h0 hc =>
    rw [wholePart, if_neg hc] at h
    · simp at h
    · exact h0
  | case4 => simp [wholePart] at h

theorem unsigned_sound {cs r : List Char} {v : Json} (h : unsigned cs = .ok (v, r)) : ∃ t, cs = t ++ r ∧ Unsigned t ∧ v = .num 0 := by
  unfold unsigned at h
  cases hw : wholePart cs with
  | none => rw [hw] at h; simp at h
  | some x =>
    obtain ⟨w, r1⟩ := x
    obtain ⟨h1, h2, h3⟩ := wholePart_sound hw
    obtain ⟨f, r2, h4, h5, h6⟩ := fraction_sound r1
    obtain ⟨e, r3, h7, h8, h9⟩ := exponent_sound r2
    rw [hw] at h
    simp only [h4, h7] at h
    split_ifs at h with hl
    simp only [Except.ok.injEq, Prod.mk.injEq] at h
    obtain ⟨rfl, rfl⟩ := h
    refine ⟨w ++ f ++ e, by rw [h1, h5, h8]; simp, ⟨w, f, e, rfl, h2, h3, h6, h9, ?_⟩, rfl⟩
    intro k1 k2
    by_contra hlt
    exact hl ⟨k1, k2, by simpa [maxStrDigits] using hlt⟩

/-! ## Values -/

/-- The text starts with a character that is no whitespace and closes nothing. -/
def Starts (t : List Char) : Prop := ∃ c t', t = c :: t' ∧ isWs c = false ∧ c ≠ ']' ∧ c ≠ '}'

theorem dec_starts {c : Char} (h : '0' ≤ c ∧ c ≤ '9') : isWs c = false ∧ c ≠ ']' ∧ c ≠ '}' ∧ c ≠ '[' ∧ c ≠ '{' ∧ c ≠ '"' ∧ c ≠ '-' ∧
    c ≠ 'n' ∧ c ≠ 't' ∧ c ≠ 'f' ∧ c ≠ 'N' ∧ c ≠ 'I' := by
  have hc : c = Char.ofNat c.toNat := (Char.ofNat_toNat c).symm
  obtain ⟨ha, hb⟩ := h
  have ha' : 48 ≤ c.toNat := ha
  have hb' : c.toNat ≤ 57 := hb
  generalize c.toNat = k at *
  subst hc
  interval_cases k <;> decide

theorem unsigned_head {t : List Char} (h : Unsigned t) : ∃ c t', t = c :: t' ∧ '0' ≤ c ∧ c ≤ '9' := by
  obtain ⟨w, f, e, rfl, ⟨h1, h2⟩, -⟩ := h
  obtain ⟨d, ds, rfl⟩ := List.exists_cons_of_ne_nil h1
  exact ⟨d, ds ++ f ++ e, by simp, h2 d (by simp)⟩

theorem isScalar_starts {t : List Char} {v : Json} (h : IsScalar t v) : Starts t ∧ t.head? ≠ some '[' ∧ t.head? ≠ some '{' := by
  cases h with
  | num h =>
    rcases (numText_iff t).1 h with h | ⟨u, rfl, h⟩
    · obtain ⟨c, t', rfl, hc⟩ := unsigned_head h
      obtain ⟨k1, k2, k3, k4, k5, -⟩ := dec_starts hc
      exact ⟨⟨c, t', rfl, k1, k2, k3⟩, by simpa using k4, by simpa using k5⟩
    · exact ⟨⟨_, _, rfl, by decide, by decide, by decide⟩, by simp, by simp⟩
  | str h => exact ⟨⟨_, _, rfl, by decide, by decide, by decide⟩, by simp, by simp⟩
  | null => exact ⟨⟨_, _, rfl, by decide, by decide, by decide⟩, by decide, by decide⟩
  | true => exact ⟨⟨_, _, rfl, by decide, by decide, by decide⟩, by decide, by decide⟩
  | false => exact ⟨⟨_, _, rfl, by decide, by decide, by decide⟩, by decide, by decide⟩
  | nan => exact ⟨⟨_, _, rfl, by decide, by decide, by decide⟩, by decide, by decide⟩
  | inf => exact ⟨⟨_, _, rfl, by decide, by decide, by decide⟩, by decide, by decide⟩
  | ninf => exact ⟨⟨_, _, rfl, by decide, by decide, by decide⟩, by decide, by decide⟩

theorem isValue_starts {d : Nat} {t : List Char} {v : Json} (h : IsValue d t v) : Starts t := by
  cases d with
  | zero => exact (isScalar_starts h).1
  | succ d =>
    rcases h with h | ⟨a, rfl, -⟩ | ⟨a, vs, rfl, -⟩ | ⟨a, rfl, -⟩ | ⟨a, ms, rfl, -⟩
    · exact (isScalar_starts h).1
    all_goals exact ⟨_, _, rfl, by decide, by decide, by decide⟩

theorem scalar_digit {c : Char} {cs : List Char} (h : '0' ≤ c ∧ c ≤ '9') : scalar (c :: cs) = unsigned (c :: cs) := by
  obtain ⟨-, -, -, -, -, k1, k2, k3, k4, k5, k6, k7⟩ := dec_starts h
  unfold scalar
  split <;> rename_i he <;> simp only [List.cons.injEq] at he <;> first | (exfalso; tauto) | rfl

theorem scalar_minus {c : Char} {cs : List Char} (h : '0' ≤ c ∧ c ≤ '9') : scalar ('-' :: c :: cs) = unsigned (c :: cs) := by
  obtain ⟨-, -, -, -, -, k1, k2, k3, k4, k5, k6, k7⟩ := dec_starts h
  rw [scalar]
  intro r he
  simp only [List.cons.injEq] at he
  exact k7 he.1

theorem scalar_complete {t r : List Char} {v : Json} (h : IsScalar t v) (hr : Ends r) : scalar (t ++ r) = .ok (v, r) := by
  cases h with
  | @str k us cs h1 h2 =>
    have hs := (stringOf_iff h1 (String.ofList cs)).2 ⟨cs, h2, rfl⟩
    simp only [List.cons_append, List.append_assoc, List.nil_append, scalar]
    rw [stringUnits_complete h1, hs]
  | num h =>
    rcases (numText_iff t).1 h with h' | ⟨u, rfl, h'⟩
    · have := unsigned_complete h' hr
      obtain ⟨c, t', rfl, hc⟩ := unsigned_head h'
      rw [List.cons_append, scalar_digit hc]
      exact this
    · have := unsigned_complete h' hr
      obtain ⟨c, t', rfl, hc⟩ := unsigned_head h'
      rw [List.cons_append, List.cons_append, scalar_minus hc]
      exact this
  | null => rfl
  | true => rfl
  | false => rfl
  | nan => rfl
  | inf => rfl
  | ninf => rfl

theorem scalar_sound {cs r : List Char} {v : Json} (h : scalar cs = .ok (v, r)) : ∃ t, cs = t ++ r ∧ IsScalar t v := by
  unfold scalar at h
  split at h
  · rename_i r1
    cases hs : stringUnits r1 with
    | none => rw [hs] at h; simp at h
    | some x =>
      obtain ⟨us, r2⟩ := x
      rw [hs] at h
      simp only [Except.ok.injEq, Prod.mk.injEq] at h
      obtain ⟨rfl, rfl⟩ := h
      obtain ⟨k, rfl, h2⟩ := stringUnits_sound r1 hs
      refine ⟨'"' :: k ++ ['"'], by simp, ?_⟩
      obtain ⟨cs, h3, h4⟩ := (stringOf_iff h2 _).1 rfl
      rw [h4]
      exact .str h2 h3
  all_goals try (simp only [Except.ok.injEq, Prod.mk.injEq] at h; obtain ⟨rfl, rfl⟩ := h)
  · exact ⟨_, rfl, .null⟩
  · exact ⟨_, rfl, .true⟩
  · exact ⟨_, rfl, .false⟩
  · exact ⟨_, rfl, .nan⟩
  · exact ⟨_, rfl, .inf⟩
  · exact ⟨_, rfl, .ninf⟩
  · obtain ⟨t, rfl, h1, rfl⟩ := unsigned_sound h
    exact ⟨'-' :: t, rfl, .num ((numText_iff _).2 (Or.inr ⟨t, rfl, h1⟩))⟩
  · obtain ⟨t, rfl, h1, rfl⟩ := unsigned_sound h
    exact ⟨t, rfl, .num ((numText_iff _).2 (Or.inl h1))⟩

theorem skipWs_starts {a t : List Char} (ha : Ws a) (ht : Starts t) (r : List Char) : skipWs (a ++ t ++ r) = t ++ r := by
  obtain ⟨c, t', rfl, hc, -⟩ := ht
  rw [List.append_assoc, skipWs_append ha, List.cons_append, skipWs_cons hc]

theorem ws_ends {b r : List Char} (hb : Ws b) (hr : Ends r) : Ends (b ++ r) := by
  cases b with
  | nil => exact hr
  | cons c b =>
    intro x hx
    simp only [List.cons_append, List.head?_cons, Option.some.injEq] at hx
    subst hx
    rcases hb c (by simp) with h | h | h | h <;> tauto

theorem ends_cons {c : Char} (h : c = ',' ∨ c = ']' ∨ c = '}') (r : List Char) : Ends (c :: r) := by
  intro x hx
  simp only [List.head?_cons, Option.some.injEq] at hx
  subst hx
  tauto

theorem items_length {P : List Char → Json → Prop} (hP : ∀ t v, P t v → Starts t) {a : List Char} {vs : List Json} (h : Items P a vs)
    (r : List Char) : vs.length ≤ (skipWs (a ++ r)).length := by
  induction h generalizing r with
  | @one a t b v h1 h2 h3 =>
    rw [List.append_assoc, skipWs_starts h1 (hP t v h2)]
    obtain ⟨c, t', rfl, -⟩ := hP t v h2
    simp
  | @more a t b r' v vs h1 h2 h3 h4 ih =>
    have := ih r
    have hl : (skipWs (r' ++ r)).length ≤ (r' ++ r).length := (List.dropWhile_sublist _).length_le
    rw [show a ++ t ++ b ++ ',' :: r' ++ r = a ++ t ++ (b ++ ',' :: (r' ++ r)) by simp, skipWs_starts h1 (hP t v h2)]
    obtain ⟨c, t', rfl, -⟩ := hP t v h2
    simp only [List.length_cons, List.length_append] at *
    omega

theorem arrayItems_complete {P : List Char → Json → Prop} {pv : List Char → Except PyErr (Json × List Char)}
    (hP : ∀ t v, P t v → Starts t) (hpv : ∀ t v, P t v → ∀ r, Ends r → pv (t ++ r) = .ok (v, r))
    {a : List Char} {vs : List Json} (h : Items P a vs) (r : List Char) (n : Nat) (hn : vs.length ≤ n) :
    arrayItems pv n (skipWs (a ++ ']' :: r)) = .ok (vs, r) := by
  induction h generalizing n with
  | @one a t b v h1 h2 h3 =>
    obtain ⟨m, rfl⟩ : ∃ m, n = m + 1 := ⟨n - 1, by simp at hn; omega⟩
    rw [List.append_assoc, skipWs_starts h1 (hP t v h2), arrayItems,
      hpv t v h2 _ (ws_ends h3 (ends_cons (Or.inr (Or.inl rfl)) r))]
    simp only
    rw [skipWs_append h3, skipWs_cons (by decide)]
    rfl
  | @more a t b r' v vs h1 h2 h3 h4 ih =>
    obtain ⟨m, rfl⟩ : ∃ m, n = m + 1 := ⟨n - 1, by simp at hn; omega⟩
    rw [show a ++ t ++ b ++ ',' :: r' ++ ']' :: r = a ++ t ++ (b ++ ',' :: (r' ++ ']' :: r)) by simp,
      skipWs_starts h1 (hP t v h2), arrayItems, hpv t v h2 _ (ws_ends h3 (ends_cons (Or.inl rfl) _))]
    simp only
    rw [skipWs_append h3, skipWs_cons (by decide)]
    simp only
    rw [ih m (by simpa using hn)]

theorem items_ws {P : List Char → Json → Prop} {w a : List Char} {vs : List Json} (hw : Ws w) (h : Items P a vs) : Items P (w ++ a) vs := by
  have key : ∀ {x : List Char}, Ws x → Ws (w ++ x) := by
    intro x hx c hc
    rcases List.mem_append.1 hc with hc | hc
    · exact hw c hc
    · exact hx c hc
  cases h with
  | @one a t b v h1 h2 h3 =>
    rw [show w ++ (a ++ t ++ b) = (w ++ a) ++ t ++ b by simp]
    exact .one (key h1) h2 h3
  | @more a t b r' v vs h1 h2 h3 h4 =>
    rw [show w ++ (a ++ t ++ b ++ ',' :: r') = (w ++ a) ++ t ++ b ++ ',' :: r' by simp]
    exact .more (key h1) h2 h3 h4

theorem ws_nil : Ws [] := by intro c hc; simp at hc

theorem arrayItems_sound {P : List Char → Json → Prop} {pv : List Char → Except PyErr (Json × List Char)}
    (hpv : ∀ cs v r, pv cs = .ok (v, r) → ∃ t, cs = t ++ r ∧ P t v)
    (n : Nat) {cs r : List Char} {vs : List Json} (h : arrayItems pv n cs = .ok (vs, r)) : ∃ a, cs = a ++ ']' :: r ∧ Items P a vs := by
  induction n generalizing cs vs with
  | zero => simp [arrayItems] at h
  | succ n ih =>
    rw [arrayItems] at h
    cases h1 : pv cs with
    | error e => rw [h1] at h; simp at h
    | ok x =>
      obtain ⟨v, r1⟩ := x
      rw [h1] at h
      simp only at h
      obtain ⟨t, rfl, h2⟩ := hpv cs v r1 h1
      split at h
      · rename_i r2 h3
        simp only [Except.ok.injEq, Prod.mk.injEq] at h
        obtain ⟨rfl, rfl⟩ := h
        obtain ⟨b, rfl, hb⟩ := skipWs_eq h3
        exact ⟨t ++ b, by simp, .one ws_nil h2 hb⟩
      · rename_i r2 h3
        cases h4 : arrayItems pv n (skipWs r2) with
        | error e => rw [h4] at h; simp at h
        | ok y =>
          obtain ⟨vs', r3⟩ := y
          rw [h4] at h
          simp only [Except.ok.injEq, Prod.mk.injEq] at h
          obtain ⟨rfl, rfl⟩ := h
          obtain ⟨b, rfl, hb⟩ := skipWs_eq h3
          obtain ⟨a, h5, h6⟩ := ih h4
          obtain ⟨w, h7, hw⟩ := skipWs_split r2
          rw [h5] at h7
          refine ⟨t ++ b ++ ',' :: (w ++ a), by rw [h7]; simp, ?_⟩
          exact .more (a := []) ws_nil h2 hb (items_ws hw h6)
      · simp at h

theorem members_length {P : List Char → Json → Prop} {a : List Char} {ms : List (String × Json)} (h : Members P a ms)
    (r : List Char) : ms.length ≤ (skipWs (a ++ r)).length := by
  induction h generalizing r with
  | @one t m h =>
    obtain ⟨a, k, us, cs, b, c, u, d, rfl, ha, -⟩ := h
    rw [show a ++ '"' :: k ++ '"' :: b ++ ':' :: c ++ u ++ d ++ r = a ++ '"' :: (k ++ '"' :: b ++ ':' :: c ++ u ++ d ++ r) by simp,
      skipWs_append ha, skipWs_cons (by decide)]
    simp
  | @more t r' m ms h1 h2 ih =>
    have := ih r
    have hl : (skipWs (r' ++ r)).length ≤ (r' ++ r).length := (List.dropWhile_sublist _).length_le
    obtain ⟨a, k, us, cs, b, c, u, d, rfl, ha, -⟩ := h1
    rw [show a ++ '"' :: k ++ '"' :: b ++ ':' :: c ++ u ++ d ++ ',' :: r' ++ r =
        a ++ '"' :: (k ++ '"' :: b ++ ':' :: c ++ u ++ d ++ ',' :: r' ++ r) by simp,
      skipWs_append ha, skipWs_cons (by decide)]
    simp only [List.length_cons, List.length_append] at *
    omega

theorem objectMembers_complete {P : List Char → Json → Prop} {pv : List Char → Except PyErr (Json × List Char)}
    (hP : ∀ t v, P t v → Starts t) (hpv : ∀ t v, P t v → ∀ r, Ends r → pv (t ++ r) = .ok (v, r))
    {a : List Char} {ms : List (String × Json)} (h : Members P a ms) (r : List Char) (n : Nat) (hn : ms.length ≤ n) :
    objectMembers pv n (skipWs (a ++ '}' :: r)) = .ok (ms, r) := by
  induction h generalizing n with
  | @one t m h =>
    obtain ⟨m, rfl⟩ : ∃ m, n = m + 1 := ⟨n - 1, by simp at hn; omega⟩
    obtain ⟨a, k, us, cs, b, c, u, d, rfl, h1, h2, h3, h4, h5, h6, h7, h8⟩ := h
    have hs := (stringOf_iff h2 _).2 ⟨cs, h3, rfl⟩
    rw [show a ++ '"' :: k ++ '"' :: b ++ ':' :: c ++ u ++ d ++ '}' :: r =
        a ++ '"' :: (k ++ '"' :: (b ++ ':' :: (c ++ u ++ (d ++ '}' :: r)))) by simp,
      skipWs_append h1, skipWs_cons (by decide)]
    simp only [objectMembers]
    rw [stringUnits_complete h2]
    simp only
    rw [skipWs_append h4, skipWs_cons (by decide)]
    simp only
    rw [skipWs_starts h5 (hP _ _ h6), hpv _ _ h6 _ (ws_ends h7 (ends_cons (Or.inr (Or.inr rfl)) r))]
    simp only
    rw [skipWs_append h7, skipWs_cons (by decide), ← hs, ← h8]
    rfl
  | @more t r' m ms h hm ih =>
    obtain ⟨j, rfl⟩ : ∃ j, n = j + 1 := ⟨n - 1, by simp at hn; omega⟩
    have ih := ih j (by simpa using hn)
    obtain ⟨a, k, us, cs, b, c, u, d, rfl, h1, h2, h3, h4, h5, h6, h7, h8⟩ := h
    have hs := (stringOf_iff h2 _).2 ⟨cs, h3, rfl⟩
    rw [show a ++ '"' :: k ++ '"' :: b ++ ':' :: c ++ u ++ d ++ ',' :: r' ++ '}' :: r =
        a ++ '"' :: (k ++ '"' :: (b ++ ':' :: (c ++ u ++ (d ++ ',' :: (r' ++ '}' :: r))))) by simp,
      skipWs_append h1, skipWs_cons (by decide)]
    simp only [objectMembers]
    rw [stringUnits_complete h2]
    simp only
    rw [skipWs_append h4, skipWs_cons (by decide)]
    simp only
    rw [skipWs_starts h5 (hP _ _ h6), hpv _ _ h6 _ (ws_ends h7 (ends_cons (Or.inl rfl) _))]
    simp only
    rw [skipWs_append h7, skipWs_cons (by decide)]
    simp only
    rw [ih, ← hs, ← h8]

theorem members_ws {P : List Char → Json → Prop} {w a : List Char} {ms : List (String × Json)} (hw : Ws w) (h : Members P a ms) :
    Members P (w ++ a) ms := by
  have key : ∀ {t m}, Member P t m → Member P (w ++ t) m := by
    rintro t m ⟨a, k, us, cs, b, c, u, d, rfl, h1, h2⟩
    refine ⟨w ++ a, k, us, cs, b, c, u, d, by simp, ?_, h2⟩
    intro x hc
    rcases List.mem_append.1 hc with hc | hc
    · exact hw x hc
    · exact h1 x hc
  cases h with
  | one h => exact .one (key h)
  | @more t r m ms h1 h2 =>
    rw [← List.append_assoc]
    exact .more (key h1) h2

theorem objectMembers_sound {P : List Char → Json → Prop} {pv : List Char → Except PyErr (Json × List Char)}
    (hpv : ∀ cs v r, pv cs = .ok (v, r) → ∃ t, cs = t ++ r ∧ P t v)
    (n : Nat) {cs r : List Char} {ms : List (String × Json)} (h : objectMembers pv n cs = .ok (ms, r)) :
    ∃ a, cs = a ++ '}' :: r ∧ Members P a ms := by
  induction n generalizing cs ms with
  | zero => simp [objectMembers] at h
  | succ n ih =>
    rw [objectMembers.eq_def] at h
    simp only at h
    split at h
    · rename_i r1
      cases h1 : stringUnits r1 with
      | none => rw [h1] at h; simp at h
      | some x =>
        obtain ⟨us, r2⟩ := x
        rw [h1] at h
        simp only at h
        obtain ⟨k, rfl, hk⟩ := stringUnits_sound r1 h1
        obtain ⟨cs, hj, hs⟩ := (stringOf_iff hk _).1 rfl
        split at h
        · rename_i r3 h2
          obtain ⟨b, rfl, hb⟩ := skipWs_eq h2
          cases h3 : pv (skipWs r3) with
          | error e => rw [h3] at h; simp at h
          | ok y =>
            obtain ⟨v, r4⟩ := y
            rw [h3] at h
            simp only at h
            obtain ⟨u, h4, h5⟩ := hpv _ _ _ h3
            obtain ⟨c, h6, hc⟩ := skipWs_split r3
            rw [h4] at h6
            split at h
            · rename_i r5 h7
              simp only [Except.ok.injEq, Prod.mk.injEq] at h
              obtain ⟨rfl, rfl⟩ := h
              obtain ⟨d, rfl, hd⟩ := skipWs_eq h7
              refine ⟨'"' :: k ++ '"' :: b ++ ':' :: c ++ u ++ d, by rw [h6]; simp, .one ?_⟩
              exact ⟨[], k, us, cs, b, c, u, d, rfl, ws_nil, hk, hj, hb, hc, h5, hd, hs⟩
            · rename_i r5 h7
              cases h8 : objectMembers pv n (skipWs r5) with
              | error e => rw [h8] at h; simp at h
              | ok z =>
                obtain ⟨ms', r6⟩ := z
                rw [h8] at h
                simp only [Except.ok.injEq, Prod.mk.injEq] at h
                obtain ⟨rfl, rfl⟩ := h
                obtain ⟨d, rfl, hd⟩ := skipWs_eq h7
                obtain ⟨a, h9, h10⟩ := ih h8
                obtain ⟨w, h11, hw⟩ := skipWs_split r5
                rw [h9] at h11
                refine ⟨'"' :: k ++ '"' :: b ++ ':' :: c ++ u ++ d ++ ',' :: (w ++ a), by rw [h6, h11]; simp, .more ?_ (members_ws hw h10)⟩
                exact ⟨[], k, us, cs, b, c, u, d, rfl, ws_nil, hk, hj, hb, hc, h5, hd, hs⟩
            · simp at h
        · simp at h
    · simp at h

theorem value_complete (d : Nat) : ∀ {t : List Char} {v : Json}, IsValue d t v → ∀ (r : List Char), Ends r → value d (t ++ r) = .ok (v, r) := by
  have hsc : ∀ (d : Nat) {t : List Char} {v : Json}, IsScalar t v → ∀ (r : List Char), Ends r → value d (t ++ r) = .ok (v, r) := by
    intro d t v h r hr
    obtain ⟨⟨c, t', rfl, -⟩, h1, h2⟩ := isScalar_starts h
    have := scalar_complete h hr
    simp only [List.head?_cons, ne_eq, Option.some.injEq] at h1 h2
    rw [List.cons_append] at *
    rw [value]
    · exact this
    · intro r he; simp only [List.cons.injEq] at he; exact h1 he.1
    · intro r he; simp only [List.cons.injEq] at he; exact h2 he.1
  induction d with
  | zero => intro t v h r hr; exact hsc 0 h r hr
  | succ d ih =>
    intro t v h r hr
    have hP : ∀ t v, IsValue d t v → Starts t := fun t v h => isValue_starts h
    have hpv : ∀ t v, IsValue d t v → ∀ r, Ends r → value d (t ++ r) = .ok (v, r) := fun t v h r hr => ih h r hr
    rcases h with h | ⟨a, rfl, ha, rfl⟩ | ⟨a, vs, rfl, ha, rfl⟩ | ⟨a, rfl, ha, rfl⟩ | ⟨a, ms, rfl, ha, rfl⟩
    · exact hsc _ h r hr
    · simp only [List.cons_append, List.append_assoc, List.nil_append, value]
      rw [skipWs_append ha, skipWs_cons (by decide)]
      rfl
    · have h1 := arrayItems_complete hP hpv ha r _ (items_length hP ha (']' :: r))
      simp only [List.cons_append, List.append_assoc, List.nil_append, value]
      split
      · rename_i r' he
        exfalso
        have hst : ∃ c x, skipWs (a ++ ']' :: r) = c :: x ∧ c ≠ ']' := by
          cases ha with
          | @one a t b v k1 k2 k3 =>
            rw [List.append_assoc, skipWs_starts k1 (hP t v k2)]
            obtain ⟨c, t', rfl, -, k4, -⟩ := hP t v k2
            exact ⟨_, _, rfl, k4⟩
          | @more a t b r' v vs k1 k2 k3 k4 =>
            rw [List.append_assoc, List.append_assoc, skipWs_starts k1 (hP t v k2)]
            obtain ⟨c, t', rfl, -, k4, -⟩ := hP t v k2
            exact ⟨_, _, rfl, k4⟩
        obtain ⟨c, x, k1, k2⟩ := hst
        rw [k1] at he
        simp only [List.cons.injEq] at he
        exact k2 he.1
      · rw [h1]
    · simp only [List.cons_append, List.append_assoc, List.nil_append, value]
      rw [skipWs_append ha, skipWs_cons (by decide)]
      rfl
    · have h1 := objectMembers_complete hP hpv ha r _ (members_length ha ('}' :: r))
      simp only [List.cons_append, List.append_assoc, List.nil_append, value]
      split
      · rename_i r' he
        exfalso
        rw [he] at h1
        cases hl : ('}' :: r').length with
        | zero => simp at hl
        | succ n =>
          rw [hl, objectMembers.eq_def] at h1
          simp at h1
      · rw [h1]

theorem value_sound (d : Nat) : ∀ {cs : List Char} {v : Json} {r : List Char}, value d cs = .ok (v, r) → ∃ t, cs = t ++ r ∧ IsValue d t v := by
  induction d with
  | zero =>
    intro cs v r h
    rw [value.eq_def] at h
    split at h
    · simp at h
    · simp at h
    · exact scalar_sound h
  | succ d ih =>
    intro cs v r h
    have hpv : ∀ cs v r, value d cs = .ok (v, r) → ∃ t, cs = t ++ r ∧ IsValue d t v := fun cs v r h => ih h
    rw [value.eq_def] at h
    split at h
    · rename_i r1
      simp only at h
      split at h
      · rename_i r2 h1
        simp only [Except.ok.injEq, Prod.mk.injEq] at h
        obtain ⟨rfl, rfl⟩ := h
        obtain ⟨a, rfl, ha⟩ := skipWs_eq h1
        exact ⟨'[' :: a ++ [']'], by simp, Or.inr (Or.inl ⟨a, rfl, ha, rfl⟩)⟩
      · generalize hn : (skipWs r1).length = n at h
        cases h2 : arrayItems (value d) n (skipWs r1) with
        | error e => rw [h2] at h; simp at h
        | ok x =>
          obtain ⟨vs, r2⟩ := x
          rw [h2] at h
          simp only [Except.ok.injEq, Prod.mk.injEq] at h
          obtain ⟨rfl, rfl⟩ := h
          obtain ⟨a, h3, h4⟩ := arrayItems_sound hpv n h2
          obtain ⟨w, h5, hw⟩ := skipWs_split r1
          rw [h3] at h5
          exact ⟨'[' :: (w ++ a) ++ [']'], by rw [h5]; simp, Or.inr (Or.inr (Or.inl ⟨w ++ a, vs, rfl, items_ws hw h4, rfl⟩))⟩
    · rename_i r1
      simp only at h
      split at h
      · rename_i r2 h1
        simp only [Except.ok.injEq, Prod.mk.injEq] at h
        obtain ⟨rfl, rfl⟩ := h
        obtain ⟨a, rfl, ha⟩ := skipWs_eq h1
        exact ⟨'{' :: a ++ ['}'], by simp, Or.inr (Or.inr (Or.inr (Or.inl ⟨a, rfl, ha, rfl⟩)))⟩
      · generalize hn : (skipWs r1).length = n at h
        cases h2 : objectMembers (value d) n (skipWs r1) with
        | error e => rw [h2] at h; simp at h
        | ok x =>
          obtain ⟨ms, r2⟩ := x
          rw [h2] at h
          simp only [Except.ok.injEq, Prod.mk.injEq] at h
          obtain ⟨rfl, rfl⟩ := h
          obtain ⟨a, h3, h4⟩ := objectMembers_sound hpv n h2
          obtain ⟨w, h5, hw⟩ := skipWs_split r1
          rw [h3] at h5
          exact ⟨'{' :: (w ++ a) ++ ['}'], by rw [h5]; simp, Or.inr (Or.inr (Or.inr (Or.inr ⟨w ++ a, ms, rfl, members_ws hw h4, rfl⟩)))⟩
    · obtain ⟨t, h1, h2⟩ := scalar_sound h
      exact ⟨t, h1, Or.inl h2⟩

/-! ## Failures -/

/-- Number of digits. -/
def digitCount (cs : List Char) : Nat := cs.countP (fun c => decide ('0' ≤ c ∧ c ≤ '9'))

/-- Number of opening brackets and braces. -/
def openCount (cs : List Char) : Nat := cs.countP (fun c => c == '[' || c == '{')

/-- The errors of the decoder: malformed text; a whole number of more than 4300 digits; more than `d` nested arrays and objects. -/
def Fails (d : Nat) (cs : List Char) (e : PyErr) : Prop :=
  e = .invalid ∨ (e = .valueError ∧ 4300 < digitCount cs) ∨ (e = .other "RecursionError" ∧ d < openCount cs)

theorem fails_mono {d : Nat} {cs cs' : List Char} {e : PyErr} (h : Fails d cs e) (hd : digitCount cs ≤ digitCount cs')
    (ho : openCount cs ≤ openCount cs') : Fails d cs' e := by
  rcases h with h | ⟨h1, h2⟩ | ⟨h1, h2⟩
  · exact Or.inl h
  · exact Or.inr (Or.inl ⟨h1, by omega⟩)
  · exact Or.inr (Or.inr ⟨h1, by omega⟩)

theorem fails_right {d : Nat} {a cs : List Char} {e : PyErr} (h : Fails d cs e) : Fails d (a ++ cs) e :=
  fails_mono h (by simp [digitCount]) (by simp [openCount])

theorem fails_cons {d : Nat} {c : Char} {cs : List Char} {e : PyErr} (h : Fails d cs e) : Fails d (c :: cs) e :=
  fails_right (a := [c]) h

theorem fails_skip {d : Nat} {cs : List Char} {e : PyErr} (h : Fails d (skipWs cs) e) : Fails d cs e := by
  obtain ⟨a, h1, -⟩ := skipWs_split cs
  rw [h1]; exact fails_right h

theorem unsigned_fails {d : Nat} {cs : List Char} {e : PyErr} (h : unsigned cs = .error e) : Fails d cs e := by
  unfold unsigned at h
  cases hw : wholePart cs with
  | none => rw [hw] at h; left; simpa using h.symm
  | some x =>
    obtain ⟨w, r1⟩ := x
    obtain ⟨h1, h2, -⟩ := wholePart_sound hw
    rw [hw] at h
    simp only at h
    split_ifs at h with hl
    simp only [Except.error.injEq] at h
    refine Or.inr (Or.inl ⟨h.symm, ?_⟩)
    have : digitCount w = w.length := List.countP_eq_length.2 (fun c hc => by simpa using h2.2 c hc)
    have h3 := hl.2.2
    simp only [maxStrDigits] at h3
    rw [h1, digitCount, List.countP_append]
    rw [digitCount] at this
    omega

theorem scalar_fails {d : Nat} {cs : List Char} {e : PyErr} (h : scalar cs = .error e) : Fails d cs e := by
  unfold scalar at h
  split at h
  · split at h
    · left; simpa using h.symm
    · simp at h
  all_goals try (simp at h; done)
  · exact fails_cons (unsigned_fails h)
  · exact unsigned_fails h

theorem arrayItems_fails {P : List Char → Json → Prop} {d : Nat} {pv : List Char → Except PyErr (Json × List Char)}
    (hpv : ∀ cs v r, pv cs = .ok (v, r) → ∃ t, cs = t ++ r ∧ P t v) (he : ∀ cs e, pv cs = .error e → Fails d cs e)
    (n : Nat) {cs : List Char} {e : PyErr} (h : arrayItems pv n cs = .error e) : Fails d cs e := by
  induction n generalizing cs with
  | zero => left; simpa [arrayItems] using h.symm
  | succ n ih =>
    rw [arrayItems] at h
    cases h1 : pv cs with
    | error e' =>
      rw [h1] at h
      simp only [Except.error.injEq] at h
      rw [← h]; exact he _ _ h1
    | ok x =>
      obtain ⟨v, r1⟩ := x
      rw [h1] at h
      simp only at h
      obtain ⟨t, rfl, -⟩ := hpv cs v r1 h1
      split at h
      · simp at h
      · rename_i r2 h3
        obtain ⟨b, rfl, -⟩ := skipWs_eq h3
        cases h4 : arrayItems pv n (skipWs r2) with
        | error e' =>
          rw [h4] at h
          simp only [Except.error.injEq] at h
          subst h
          exact fails_right (fails_right (fails_cons (fails_skip (ih h4))))
        | ok y => rw [h4] at h; simp at h
      · left; simpa using h.symm

theorem objectMembers_fails {P : List Char → Json → Prop} {d : Nat} {pv : List Char → Except PyErr (Json × List Char)}
    (hpv : ∀ cs v r, pv cs = .ok (v, r) → ∃ t, cs = t ++ r ∧ P t v) (he : ∀ cs e, pv cs = .error e → Fails d cs e)
    (n : Nat) {cs : List Char} {e : PyErr} (h : objectMembers pv n cs = .error e) : Fails d cs e := by
  induction n generalizing cs with
  | zero => left; simpa [objectMembers] using h.symm
  | succ n ih =>
    rw [objectMembers.eq_def] at h
    simp only at h
    split at h
    · rename_i r1
      cases h1 : stringUnits r1 with
      | none => rw [h1] at h; left; simpa using h.symm
      | some x =>
        obtain ⟨us, r2⟩ := x
        rw [h1] at h
        simp only at h
        obtain ⟨k, rfl, -⟩ := stringUnits_sound r1 h1
        apply fails_cons
        apply fails_right
        apply fails_cons
        split at h
        · rename_i r3 h2
          obtain ⟨b, rfl, -⟩ := skipWs_eq h2
          apply fails_right
          apply fails_cons
          apply fails_skip
          cases h3 : pv (skipWs r3) with
          | error e' =>
            rw [h3] at h
            simp only [Except.error.injEq] at h
            rw [← h]; exact he _ _ h3
          | ok y =>
            obtain ⟨v, r4⟩ := y
            rw [h3] at h
            simp only at h
            obtain ⟨u, h4, -⟩ := hpv _ _ _ h3
            rw [h4]
            apply fails_right
            split at h
            · simp at h
            · rename_i r5 h7
              obtain ⟨c, rfl, -⟩ := skipWs_eq h7
              apply fails_right
              apply fails_cons
              apply fails_skip
              cases h8 : objectMembers pv n (skipWs r5) with
              | error e' =>
                rw [h8] at h
                simp only [Except.error.injEq] at h
                subst h; exact ih h8
              | ok z => rw [h8] at h; simp at h
            · left; simpa using h.symm
        · left; simpa using h.symm
    · left; simpa using h.symm

theorem fails_open {d : Nat} {c : Char} {cs : List Char} {e : PyErr} (hc : c = '[' ∨ c = '{') (h : Fails d cs e) : Fails (d + 1) (c :: cs) e := by
  have ho : openCount (c :: cs) = openCount cs + 1 := by
    rw [openCount, openCount, List.countP_cons_of_pos (by rcases hc with rfl | rfl <;> rfl)]
  rcases h with h | ⟨h1, h2⟩ | ⟨h1, h2⟩
  · exact Or.inl h
  · exact Or.inr (Or.inl ⟨h1, lt_of_lt_of_le h2 (by simp [digitCount, List.countP_cons])⟩)
  · exact Or.inr (Or.inr ⟨h1, by omega⟩)

theorem value_fails (d : Nat) : ∀ {cs : List Char} {e : PyErr}, value d cs = .error e → Fails d cs e := by
  have hpv : ∀ d cs v r, value d cs = .ok (v, r) → ∃ t, cs = t ++ r ∧ IsValue d t v := fun d cs v r h => value_sound d h
  have hrec : ∀ {c : Char} {r : List Char} {e : PyErr}, c = '[' ∨ c = '{' →
      (Except.error (.other "RecursionError") : Except PyErr (Json × List Char)) = .error e → Fails 0 (c :: r) e := by
    intro c r e hc h
    simp only [Except.error.injEq] at h
    refine Or.inr (Or.inr ⟨h.symm, ?_⟩)
    rw [openCount, List.countP_cons_of_pos (by rcases hc with rfl | rfl <;> rfl)]
    omega
  induction d with
  | zero =>
    intro cs e h
    rw [value.eq_def] at h
    split at h
    · exact hrec (Or.inl rfl) h
    · exact hrec (Or.inr rfl) h
    · exact scalar_fails h
  | succ d ih =>
    intro cs e h
    rw [value.eq_def] at h
    split at h
    · rename_i r1
      simp only at h
      apply fails_open (Or.inl rfl)
      apply fails_skip
      split at h
      · simp at h
      · generalize (skipWs r1).length = n at h
        cases h2 : arrayItems (value d) n (skipWs r1) with
        | error e' =>
          rw [h2] at h
          simp only [Except.error.injEq] at h
          rw [← h]
          exact arrayItems_fails (hpv d) (fun _ _ h => ih h) n h2
        | ok x => rw [h2] at h; simp at h
    · rename_i r1
      simp only at h
      apply fails_open (Or.inr rfl)
      apply fails_skip
      split at h
      · simp at h
      · generalize (skipWs r1).length = n at h
        cases h2 : objectMembers (value d) n (skipWs r1) with
        | error e' =>
          rw [h2] at h
          simp only [Except.error.injEq] at h
          rw [← h]
          exact objectMembers_fails (hpv d) (fun _ _ h => ih h) n h2
        | ok x => rw [h2] at h; simp at h
    · exact scalar_fails h

/-! ## The whole text -/

theorem ends_nil : Ends [] := by intro c hc; simp at hc

/-- Reading a text in braces. -/
theorem loads_iff (depth : Nat) (body : List Char) (d : Dict) :
    loads depth ('{' :: body ++ ['}']) = .ok d ↔ IsValue depth ('{' :: body ++ ['}']) (.obj d) := by
  have hsk : skipWs ('{' :: body ++ ['}']) = '{' :: body ++ ['}'] := by
    rw [List.cons_append]; exact skipWs_cons (by decide) _
  constructor
  · intro h
    rw [loads, hsk] at h
    cases h1 : value depth ('{' :: body ++ ['}']) with
    | error e => rw [h1] at h; simp at h
    | ok x =>
      obtain ⟨v, r⟩ := x
      rw [h1] at h
      simp only at h
      split_ifs at h with h2
      obtain ⟨t, h3, h4⟩ := value_sound depth h1
      have hr : r = [] := by
        by_contra hne
        have h5 : ('{' :: body ++ ['}']).getLast? = some '}' := List.getLast?_concat ..
        rw [h3, List.getLast?_append_of_ne_nil _ hne] at h5
        have := ws_of_skipWs_nil h2 '}' (List.mem_of_getLast? h5)
        revert this; decide
      subst hr
      rw [List.append_nil] at h3
      rw [h3]
      cases v with
      | obj kvs => simp only [Except.ok.injEq] at h; rw [← h]; exact h4
      | _ => simp at h
  · intro h
    have := value_complete depth h [] ends_nil
    rw [List.append_nil] at this
    rw [loads, hsk, this]
    simp [skipWs]

theorem loads_fails (depth : Nat) (body : List Char) (e : PyErr) (h : loads depth ('{' :: body ++ ['}']) = .error e) :
    Fails depth ('{' :: body ++ ['}']) e := by
  have hsk : skipWs ('{' :: body ++ ['}']) = '{' :: body ++ ['}'] := by
    rw [List.cons_append]; exact skipWs_cons (by decide) _
  rw [loads, hsk] at h
  cases h1 : value depth ('{' :: body ++ ['}']) with
  | error e' =>
    rw [h1] at h
    simp only [Except.error.injEq] at h
    rw [← h]; exact value_fails depth h1
  | ok x =>
    obtain ⟨v, r⟩ := x
    rw [h1] at h
    simp only at h
    split_ifs at h with h2
    · -- a text that starts with a brace is an object
      exfalso
      rw [List.cons_append, value.eq_def] at h1
      simp only at h1
      cases depth with
      | zero => simp at h1
      | succ d =>
        simp only at h1
        split at h1
        · simp only [Except.ok.injEq, Prod.mk.injEq] at h1
          rw [← h1.1] at h; simp at h
        · split at h1
          · simp at h1
          · simp only [Except.ok.injEq, Prod.mk.injEq] at h1
            rw [← h1.1] at h; simp at h
    · left; simpa using h.symm

/-- Deeper nesting is allowed where less is. -/
theorem isValue_mono (d : Nat) : ∀ {t : List Char} {v : Json}, IsValue d t v → IsValue (d + 1) t v := by
  induction d with
  | zero => intro t v h; exact Or.inl h
  | succ d ih =>
    have hi : ∀ {a vs}, Items (IsValue d) a vs → Items (IsValue (d + 1)) a vs := by
      intro a vs h
      induction h with
      | one h1 h2 h3 => exact .one h1 (ih h2) h3
      | more h1 h2 h3 _ ih' => exact .more h1 (ih h2) h3 ih'
    have hm' : ∀ {t m}, Member (IsValue d) t m → Member (IsValue (d + 1)) t m := by
      rintro t m ⟨a, k, us, cs, b, c, u, e, h0, h1, h2, h3, h4, h5, h6, h7⟩
      exact ⟨a, k, us, cs, b, c, u, e, h0, h1, h2, h3, h4, h5, ih h6, h7⟩
    have hm : ∀ {a ms}, Members (IsValue d) a ms → Members (IsValue (d + 1)) a ms := by
      intro a ms h
      induction h with
      | one h => exact .one (hm' h)
      | more h _ ih' => exact .more (hm' h) ih'
    intro t v h
    rcases h with h | h | ⟨a, vs, h1, h2, h3⟩ | h | ⟨a, ms, h1, h2, h3⟩
    · exact Or.inl h
    · exact Or.inr (Or.inl h)
    · exact Or.inr (Or.inr (Or.inl ⟨a, vs, h1, hi h2, h3⟩))
    · exact Or.inr (Or.inr (Or.inr (Or.inl h)))
    · exact Or.inr (Or.inr (Or.inr (Or.inr ⟨a, ms, h1, hm h2, h3⟩)))

theorem isValue_le {d d' : Nat} (h : d ≤ d') {t : List Char} {v : Json} (hv : IsValue d t v) : IsValue d' t v := by
  induction h with
  | refl => exact hv
  | step _ ih => exact isValue_mono _ ih

/-! ## C79 -/

variable {σ : Type}

/-- **C79.** A dictionary comes out of a reply exactly if the text from the first opening to the last closing brace is a JSON
text of an object, and it is the dictionary of this object. -/
theorem C79_exact (w : World σ) (depth : Nat) (hw : w.loads = loads depth) (text : List Char) (d : Dict) :
    trimAndLoadJson w text = .ok d ↔
      ∃ pre body post, text = pre ++ ('{' :: body ++ ['}']) ++ post ∧ '{' ∉ pre ∧ '}' ∉ post ∧
        IsValue depth ('{' :: body ++ ['}']) (.obj d) := by
  constructor
  · intro h
    rw [trimAndLoadJson] at h
    cases hb : searchBraces text with
    | none => rw [hb] at h; simp at h
    | some t =>
      rw [hb] at h
      simp only [hw] at h
      obtain ⟨pre, body, post, h1, h2, h3, h4⟩ := (C46_outermost text t).1 hb
      rw [h2] at h h1
      exact ⟨pre, body, post, h1, h3, h4, (loads_iff depth body d).1 h⟩
  · rintro ⟨pre, body, post, h1, h2, h3, h4⟩
    rw [trimAndLoadJson, (C46_outermost text ('{' :: body ++ ['}'])).2 ⟨pre, body, post, h1, rfl, h2, h3⟩]
    simp only [hw]
    exact (loads_iff depth body d).2 h4

/-- **C79, unambiguous.** A text is a JSON text of one value at most. -/
theorem C79_unambiguous (d1 d2 : Nat) (t : List Char) (v1 v2 : Json) (h1 : IsValue d1 t v1) (h2 : IsValue d2 t v2) : v1 = v2 := by
  have k1 := value_complete _ (isValue_le (Nat.le_max_left d1 d2) h1) [] ends_nil
  have k2 := value_complete _ (isValue_le (Nat.le_max_right d1 d2) h2) [] ends_nil
  rw [k1] at k2
  simpa using k2

/-- **C79, every string.** Every string can be written, for example with itself between the quotes if it has no quote, no
backslash and no control character. -/
theorem C79_plain (cs : List Char) (h : ∀ c ∈ cs, c ≠ '"' ∧ c ≠ '\\' ∧ 32 ≤ c.toNat) :
    IsScalar ('"' :: cs ++ ['"']) (.str (String.ofList cs)) := by
  have h1 : StrBody cs (cs.map Char.toNat) := by
    induction cs with
    | nil => exact .nil
    | cons c cs ih =>
      obtain ⟨a, b, e⟩ := h c (by simp)
      exact .plain a b e (ih (fun x hx => h x (by simp [hx])))
  have h2 : ∀ cs : List Char, Joined (cs.map Char.toNat) cs := by
    intro cs
    induction cs with
    | nil => exact .nil
    | cons c cs ih => exact .char ih
  exact .str h1 (h2 cs)

/-- **C79, duplicates.** Of several members with the same key the last one counts. -/
theorem C79_last (ms : List (String × Json)) (key : String) :
    Dict.get (Verif.Shared.dictOf ms) key = ((ms.reverse.find? (fun m => m.1 == key)).map (·.2)) := by
  have hput : ∀ (d : Dict) (k : String) (v : Json),
      Dict.get (Verif.Shared.dictPut d k v) key = if k = key then some v else Dict.get d key := by
    intro d k v
    induction d with
    | nil =>
      by_cases hk : k = key
      · simp [Verif.Shared.dictPut, Dict.get, hk]
      · simp [Verif.Shared.dictPut, Dict.get, hk]
    | cons x d ih =>
      obtain ⟨a, b⟩ := x
      simp only [Verif.Shared.dictPut]
      simp only [Dict.get] at ih ⊢
      by_cases hak : a = k
      · subst hak
        rw [if_pos rfl]
        by_cases hk : a = key
        · simp [hk]
        · simp [hk]
      · rw [if_neg hak]
        by_cases ha : a = key
        · subst ha
          simp only [List.find?_cons, beq_self_eq_true, Option.map_some]
          rw [if_neg (fun e => hak e.symm)]
        · have hb : (a == key) = false := by simpa using ha
          simp only [List.find?_cons, hb]
          exact ih
  have key' : ∀ (l : List (String × Json)) (d : Dict), Dict.get (l.foldl (fun d x => Verif.Shared.dictPut d x.1 x.2) d) key =
      match l.reverse.find? (fun m => m.1 == key) with
      | some m => some m.2
      | none => Dict.get d key := by
    intro l
    induction l with
    | nil => intro d; rfl
    | cons x l ih =>
      intro d
      rw [List.foldl_cons, ih, List.reverse_cons, List.find?_append, hput]
      cases l.reverse.find? (fun m => m.1 == key) with
      | some m => rfl
      | none =>
        simp only [Option.none_or, List.find?_cons, List.find?_nil]
        by_cases hk : x.1 = key
        · simp [hk]
        · have hb : (x.1 == key) = false := by simpa using hk
          simp [hb, hk]
  have := key' ms []
  rw [Verif.Shared.dictOf, this]
  cases ms.reverse.find? (fun m => m.1 == key) with
  | some m => rfl
  | none => rfl

/-- **C79, failures.** Every other reply is an invalid response (and is asked for again), except for whole numbers of more than
4300 digits, and for more nested brackets than the interpreter can handle. -/
theorem C79_fails (w : World σ) (depth : Nat) (hw : w.loads = loads depth) (text : List Char) (e : PyErr)
    (h : trimAndLoadJson w text = .error e) : Fails depth text e := by
  rw [trimAndLoadJson] at h
  cases hb : searchBraces text with
  | none => rw [hb] at h; left; simpa using h.symm
  | some t =>
    rw [hb] at h
    simp only [hw] at h
    obtain ⟨pre, body, post, h1, h2, -⟩ := (C46_outermost text t).1 hb
    rw [h2] at h
    have h3 := loads_fails depth body e h
    rw [h1, h2]
    refine fails_mono h3 ?_ ?_
    · simp only [digitCount, List.countP_append]; omega
    · simp only [openCount, List.countP_append]; omega

/-- **C79, with the decoder of the standard library** the hypothesis about JSON in C45 holds for every LLM whose replies have no more
than 4300 digits and no more than `depth` opening brackets. -/
theorem C79_tame (w : World σ) (depth : Nat) (hw : w.loads = loads depth)
    (hcall : ∀ s m e s', w.call s m = (.error e, s') → e = .invalid)
    (hsize : ∀ s m text s', w.call s m = (.ok text, s') → digitCount text ≤ 4300 ∧ openCount text ≤ depth)
    (hverdicts : ∀ t d xs, Replied w t → w.loads t = .ok d → d.get "verdicts" = some (.arr xs) → ∀ v ∈ xs, ¬ Unhashable v)
    (hdigits : ∀ s m text s', w.call s m = (.ok text, s') → ∀ neg ds, searchInt w.digit text = some (neg, ds) → ds.length ≤ 4300) :
    Tame w where
  call := hcall
  loads := by
    rintro t e ⟨s, m, text, s', h1, h2⟩ h3
    have h4 : trimAndLoadJson w text = .error e := by rw [trimAndLoadJson, h2]; exact h3
    obtain ⟨h5, h6⟩ := hsize s m text s' h1
    rcases C79_fails w depth hw text e h4 with h | ⟨-, h⟩ | ⟨-, h⟩
    · exact h
    · omega
    · omega
  verdicts := hverdicts
  digits := hdigits

/-! ## Samples -/

/-- An LLM that wraps its JSON in prose, and Python's decoder. -/
def jsonWorld : World Unit where
  call := fun _ _ => (.ok "Sure! {\"claims\": [\"a\\u00e9\", \"\\\"b\\\"\"], \"n\": [-1.5e+3, true, {}]} Anything else?".toList, ())
  loads := loads 900
  digit := asciiDigit

/-- The hypotheses of `C79_exact` can be met: what comes out of this reply. -/
example : trimAndLoadJson jsonWorld "Sure! {\"claims\": [\"a\\u00e9\", \"\\\"b\\\"\"], \"n\": [-1.5e+3, true, {}]} Anything else?".toList =
    .ok [("claims", .arr [.str "aé", .str "\"b\""]), ("n", .arr [.num 0, .bool true, .obj []])] := by
  rfl

/-- Trailing commas, single quotes and comments are no JSON. -/
example : loads 900 "{\"claims\": [\"a\",]}".toList = .error .invalid ∧ loads 900 "{'claims': []}".toList = .error .invalid ∧
    loads 900 "{\"claims\": [] // none\n}".toList = .error .invalid ∧ loads 1 "{\"claims\": []}".toList = .error (.other "RecursionError") :=
  ⟨rfl, rfl, rfl, rfl⟩

/-- A surrogate pair is one character, and the last of two members counts. -/
example : loads 900 "{\"a\": \"\\ud83d\\ude00\", \"a\": \"\\ud83d\"}".toList = .ok [("a", .str "\uFFFD")] ∧
    loads 900 "{\"a\": \"\\ud83d\\ude00\"}".toList = .ok [("a", .str "😀")] := ⟨rfl, rfl⟩

/-- The hypotheses of `C79_tame` can be met. -/
example : Tame jsonWorld := by
  refine C79_tame jsonWorld 900 rfl ?_ ?_ ?_ ?_
  · intro s m e s' h; simp [jsonWorld] at h
  · intro s m text s' h
    simp only [jsonWorld, Prod.mk.injEq, Except.ok.injEq] at h
    rw [← h.1]
    decide +kernel
  · rintro t d xs ⟨s, m, text, s', h1, h2⟩ h3 h4 v hv
    exfalso
    simp only [jsonWorld, Prod.mk.injEq, Except.ok.injEq] at h1
    rw [← h1.1] at h2
    have h5 : trimAndLoadJson jsonWorld "Sure! {\"claims\": [\"a\\u00e9\", \"\\\"b\\\"\"], \"n\": [-1.5e+3, true, {}]} Anything else?".toList = .ok d := by
      rw [trimAndLoadJson, h2]; exact h3
    have h6 : trimAndLoadJson jsonWorld "Sure! {\"claims\": [\"a\\u00e9\", \"\\\"b\\\"\"], \"n\": [-1.5e+3, true, {}]} Anything else?".toList =
        .ok [("claims", .arr [.str "aé", .str "\"b\""]), ("n", .arr [.num 0, .bool true, .obj []])] := rfl
    rw [h6] at h5
    simp only [Except.ok.injEq] at h5
    rw [← h5] at h4
    simp [Dict.get] at h4
  · intro s m text s' h neg ds hs
    simp only [jsonWorld, Prod.mk.injEq, Except.ok.injEq] at h
    rw [← h.1, show searchInt jsonWorld.digit
      "Sure! {\"claims\": [\"a\\u00e9\", \"\\\"b\\\"\"], \"n\": [-1.5e+3, true, {}]} Anything else?".toList = some (false, ['0', '0']) by decide +kernel] at hs
    simp only [Option.some.injEq, Prod.mk.injEq] at hs
    rw [← hs.2]
    decide

end Verif.TextGen
