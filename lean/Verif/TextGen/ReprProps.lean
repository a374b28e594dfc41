import Verif.TextGen.Repr
import Mathlib.Tactic.IntervalCases

/-! # Printed strings and lists can be read back, and have no line break -/

namespace Verif.TextGen

variable {printable : Char → Bool}

theorem hexFixed_length (w n : Nat) : (hexFixed w n).length = w := by
  induction w generalizing n with
  | zero => rfl
  | succ w ih => simp [hexFixed, ih]

theorem hexChar_inj {a b : Nat} (ha : a < 16) (hb : b < 16) (h : hexChar a = hexChar b) : a = b := by
  have key : ∀ a : Fin 16, ∀ b : Fin 16, hexChar a = hexChar b → a = b := by decide +kernel
  exact congrArg Fin.val (key ⟨a, ha⟩ ⟨b, hb⟩ h)

theorem hexChar_newline {a : Nat} (ha : a < 16) : hexChar a ≠ '\n' := by
  have key : ∀ a : Fin 16, hexChar a ≠ '\n' := by decide +kernel
  exact key ⟨a, ha⟩

theorem hexFixed_inj (w : Nat) {n m : Nat} (hn : n < 16 ^ w) (hm : m < 16 ^ w) (h : hexFixed w n = hexFixed w m) : n = m := by
  induction w generalizing n m with
  | zero => simp at hn hm; omega
  | succ w ih =>
    rw [hexFixed, hexFixed] at h
    obtain ⟨h1, h2⟩ := List.append_inj h (by rw [hexFixed_length, hexFixed_length])
    have h3 := hexChar_inj (Nat.mod_lt _ (by omega)) (Nat.mod_lt _ (by omega)) (by simpa using h2)
    have h4 := ih (by rw [pow_succ] at hn; omega) (by rw [pow_succ] at hm; omega) h1
    omega

theorem hexFixed_newline (w n : Nat) : '\n' ∉ hexFixed w n := by
  induction w generalizing n with
  | zero => simp [hexFixed]
  | succ w ih =>
    rw [hexFixed, List.mem_append, not_or]
    refine ⟨ih _, ?_⟩
    rw [List.mem_singleton]
    exact (hexChar_newline (Nat.mod_lt _ (by omega))).symm

theorem char_lt (c : Char) : c.toNat < 1114112 := by
  have h : c.toNat < 0xd800 ∨ (0xdfff < c.toNat ∧ c.toNat < 0x110000) := c.valid
  omega

/-- What is printed for a character: the character, a short escape, or a long escape. -/
theorem reprChar_cases (printable : Char → Bool) (q c : Char) :
    (reprChar printable q c = [c] ∧ c ≠ q ∧ c ≠ '\\' ∧ c ≠ '\n') ∨
    (∃ e, reprChar printable q c = ['\\', e] ∧ ((e = c ∧ (c = q ∨ c = '\\')) ∨ (e = 't' ∧ c = '\t') ∨ (e = 'n' ∧ c = '\n') ∨ (e = 'r' ∧ c = '\r'))) ∨
    (∃ e w, reprChar printable q c = '\\' :: e :: hexFixed w c.toNat ∧ c.toNat < 16 ^ w ∧
      ((e = 'x' ∧ w = 2) ∨ (e = 'u' ∧ w = 4) ∨ (e = 'U' ∧ w = 8))) := by
  have hlt := char_lt c
  unfold reprChar
  split_ifs with h1 h2 h3 h4 h5 h6 h7 h8 h9
  · exact Or.inr (Or.inl ⟨c, rfl, Or.inl ⟨rfl, h1⟩⟩)
  · exact Or.inr (Or.inl ⟨'t', rfl, Or.inr (Or.inl ⟨rfl, h2⟩)⟩)
  · exact Or.inr (Or.inl ⟨'n', rfl, Or.inr (Or.inr (Or.inl ⟨rfl, h3⟩))⟩)
  · exact Or.inr (Or.inl ⟨'r', rfl, Or.inr (Or.inr (Or.inr ⟨rfl, h4⟩))⟩)
  · exact Or.inr (Or.inr ⟨'x', 2, rfl, by norm_num; omega, Or.inl ⟨rfl, rfl⟩⟩)
  · rw [not_or] at h1; exact Or.inl ⟨rfl, h1.1, h1.2, h3⟩
  · rw [not_or] at h1; exact Or.inl ⟨rfl, h1.1, h1.2, h3⟩
  · exact Or.inr (Or.inr ⟨'x', 2, rfl, by norm_num; omega, Or.inl ⟨rfl, rfl⟩⟩)
  · exact Or.inr (Or.inr ⟨'u', 4, rfl, by norm_num; omega, Or.inr (Or.inl ⟨rfl, rfl⟩)⟩)
  · exact Or.inr (Or.inr ⟨'U', 8, rfl, by norm_num; omega, Or.inr (Or.inr ⟨rfl, rfl⟩)⟩)

theorem toNat_inj {c d : Char} (h : c.toNat = d.toNat) : c = d := by
  rw [← Char.ofNat_toNat c, ← Char.ofNat_toNat d, h]

/-- The printed characters form a prefix code. -/
theorem reprChar_prefix {q c d : Char} (hq : q = '\'' ∨ q = '"') {x y : List Char}
    (h : reprChar printable q c ++ x = reprChar printable q d ++ y) : c = d ∧ x = y := by
  have hq' : 't' ≠ q ∧ 'n' ≠ q ∧ 'r' ≠ q ∧ 'x' ≠ q ∧ 'u' ≠ q ∧ 'U' ≠ q := by rcases hq with rfl | rfl <;> decide
  rcases reprChar_cases printable q c with ⟨h1, h2, h3, h4⟩ | ⟨e, h1, h2⟩ | ⟨e, w, h1, h2, h3⟩ <;>
    rcases reprChar_cases printable q d with ⟨k1, k2, k3, k4⟩ | ⟨e', k1, k2⟩ | ⟨e', w', k1, k2, k3⟩ <;> rw [h1, k1] at h
  · simpa using h
  · simp only [List.cons_append, List.cons.injEq] at h; exact absurd h.1 h3
  · simp only [List.cons_append, List.cons.injEq] at h; exact absurd h.1 h3
  · simp only [List.cons_append, List.cons.injEq] at h; exact absurd h.1.symm k3
  · simp only [List.cons_append, List.cons.injEq, List.nil_append, true_and] at h
    obtain ⟨rfl, h⟩ := h
    refine ⟨?_, h⟩
    rcases h2 with ⟨rfl, h2⟩ | ⟨rfl, rfl⟩ | ⟨rfl, rfl⟩ | ⟨rfl, rfl⟩ <;>
      rcases k2 with ⟨k5, k2⟩ | ⟨k5, rfl⟩ | ⟨k5, rfl⟩ | ⟨k5, rfl⟩ <;> (try subst k5) <;> first | rfl | (exfalso; revert h2; simp_all) | (exfalso; revert k2; simp_all) | (exfalso; revert k5; decide)
  · simp only [List.cons_append, List.cons.injEq, List.nil_append, true_and] at h
    obtain ⟨rfl, h⟩ := h
    exfalso
    rcases h2 with ⟨rfl, h2⟩ | ⟨rfl, rfl⟩ | ⟨rfl, rfl⟩ | ⟨rfl, rfl⟩ <;> rcases k3 with ⟨k5, -⟩ | ⟨k5, -⟩ | ⟨k5, -⟩ <;>
      first | (revert k5; decide) | (subst k5; revert h2; simp_all)
  · simp only [List.cons_append, List.cons.injEq] at h; exact absurd h.1.symm k3
  · simp only [List.cons_append, List.cons.injEq, List.nil_append, true_and] at h
    obtain ⟨rfl, h⟩ := h
    exfalso
    rcases k2 with ⟨rfl, h2⟩ | ⟨rfl, rfl⟩ | ⟨rfl, rfl⟩ | ⟨rfl, rfl⟩ <;> rcases h3 with ⟨k5, -⟩ | ⟨k5, -⟩ | ⟨k5, -⟩ <;>
      first | (revert k5; decide) | (subst k5; revert h2; simp_all)
  · simp only [List.cons_append, List.cons.injEq, true_and] at h
    obtain ⟨rfl, h⟩ := h
    have hw : w = w' := by
      rcases h3 with ⟨rfl, rfl⟩ | ⟨rfl, rfl⟩ | ⟨rfl, rfl⟩ <;> rcases k3 with ⟨k5, rfl⟩ | ⟨k5, rfl⟩ | ⟨k5, rfl⟩ <;>
        first | rfl | (exfalso; revert k5; decide)
    subst hw
    obtain ⟨h5, h6⟩ := List.append_inj h (by rw [hexFixed_length, hexFixed_length])
    exact ⟨toNat_inj (hexFixed_inj w h2 k2 h5), h6⟩

theorem reprChar_head {q c : Char} (hq : q = '\'' ∨ q = '"') : ∃ e x, reprChar printable q c = e :: x ∧ e ≠ q := by
  rcases reprChar_cases printable q c with ⟨h1, h2, -⟩ | ⟨e, h1, -⟩ | ⟨e, w, h1, -⟩
  · exact ⟨c, [], h1, h2⟩
  · exact ⟨'\\', [e], h1, by rcases hq with rfl | rfl <;> decide⟩
  · exact ⟨'\\', _, h1, by rcases hq with rfl | rfl <;> decide⟩

theorem reprBody_prefix {q : Char} (hq : q = '\'' ∨ q = '"') {cs ds : List Char} {x y : List Char}
    (h : cs.flatMap (reprChar printable q) ++ q :: x = ds.flatMap (reprChar printable q) ++ q :: y) : cs = ds ∧ x = y := by
  induction cs generalizing ds with
  | nil =>
    cases ds with
    | nil => simpa using h
    | cons d ds =>
      obtain ⟨e, z, h1, h2⟩ := reprChar_head (printable := printable) (c := d) hq
      simp only [List.flatMap_nil, List.nil_append, List.flatMap_cons, h1, List.cons_append, List.cons.injEq] at h
      exact absurd h.1.symm h2
  | cons c cs ih =>
    cases ds with
    | nil =>
      obtain ⟨e, z, h1, h2⟩ := reprChar_head (printable := printable) (c := c) hq
      simp only [List.flatMap_nil, List.nil_append, List.flatMap_cons, h1, List.cons_append, List.cons.injEq] at h
      exact absurd h.1 h2
    | cons d ds =>
      simp only [List.flatMap_cons, List.append_assoc] at h
      obtain ⟨rfl, h1⟩ := reprChar_prefix hq h
      obtain ⟨rfl, h2⟩ := ih h1
      exact ⟨rfl, h2⟩

theorem quoteOf_cases (cs : List Char) : quoteOf cs = '\'' ∨ quoteOf cs = '"' := by
  unfold quoteOf; split_ifs <;> simp

/-- A printed string can be read back, whatever follows. -/
theorem reprStr_prefix {s t : String} {x y : List Char} (h : reprStr printable s ++ x = reprStr printable t ++ y) : s = t ∧ x = y := by
  simp only [reprStr, List.cons_append, List.append_assoc, List.nil_append, List.cons.injEq] at h
  obtain ⟨hq, h⟩ := h
  rw [← hq] at h
  obtain ⟨h1, h2⟩ := reprBody_prefix (quoteOf_cases s.toList) h
  exact ⟨String.toList_injective h1, h2⟩

theorem reprTail_inj {l m : List String} (h : reprTail printable l = reprTail printable m) : l = m := by
  induction l generalizing m with
  | nil =>
    cases m with
    | nil => rfl
    | cons t ts => simp [reprTail] at h
  | cons s ss ih =>
    cases m with
    | nil => simp [reprTail] at h
    | cons t ts =>
      simp only [reprTail, List.cons_append, List.cons.injEq, true_and] at h
      obtain ⟨rfl, h1⟩ := reprStr_prefix h
      rw [ih h1]

/-- A printed list can be read back. -/
theorem reprList_inj {l m : List String} (h : reprList printable l = reprList printable m) : l = m := by
  have hs : ∀ (s : String) (ss : List String), ['[', ']'] ≠ reprList printable (s :: ss) := by
    intro s ss h
    simp only [reprList, reprStr, List.cons_append, List.cons.injEq, true_and] at h
    rcases quoteOf_cases s.toList with hq | hq <;> rw [hq] at h <;> exact absurd h.1 (by decide)
  cases l with
  | nil =>
    cases m with
    | nil => rfl
    | cons t ts => exact absurd h (hs t ts)
  | cons s ss =>
    cases m with
    | nil => exact absurd h.symm (hs s ss)
    | cons t ts =>
      simp only [reprList, List.cons_append, List.cons.injEq, true_and] at h
      obtain ⟨rfl, h1⟩ := reprStr_prefix h
      rw [reprTail_inj h1]

theorem reprStr_newline (s : String) : '\n' ∉ reprStr printable s := by
  have hq : quoteOf s.toList ≠ '\n' := by rcases quoteOf_cases s.toList with h | h <;> rw [h] <;> decide
  simp only [reprStr, List.cons_append, List.mem_cons, List.mem_append, List.mem_flatMap, List.not_mem_nil, or_false, not_or]
  refine ⟨fun h => hq h.symm, ?_, fun h => hq h.symm⟩
  rintro ⟨c, -, h⟩
  rcases reprChar_cases printable (quoteOf s.toList) c with ⟨h1, -, -, h2⟩ | ⟨e, h1, h2⟩ | ⟨e, w, h1, -, h2⟩
  · rw [h1, List.mem_singleton] at h; exact h2 h.symm
  · rw [h1] at h
    simp only [List.mem_cons, List.not_mem_nil, or_false] at h
    rcases h with h | rfl
    · exact absurd h (by decide)
    · rcases h2 with ⟨rfl, h2 | h2⟩ | ⟨h2, -⟩ | ⟨h2, -⟩ | ⟨h2, -⟩
      · exact hq h2.symm
      all_goals exact absurd h2 (by decide)
  · rw [h1] at h
    simp only [List.mem_cons] at h
    rcases h with h | h | h
    · exact absurd h (by decide)
    · subst h
      rcases h2 with ⟨h2, -⟩ | ⟨h2, -⟩ | ⟨h2, -⟩ <;> exact absurd h2 (by decide)
    · exact hexFixed_newline _ _ h

/-- A printed list is one line. -/
theorem reprList_newline (l : List String) : '\n' ∉ reprList printable l := by
  have ht : ∀ l : List String, '\n' ∉ reprTail printable l := by
    intro l
    induction l with
    | nil => simp [reprTail]
    | cons s ss ih =>
      simp only [reprTail, List.cons_append, List.mem_cons, List.mem_append, not_or]
      exact ⟨by decide, by decide, reprStr_newline s, ih⟩
  cases l with
  | nil => simp [reprList]
  | cons s ss =>
    simp only [reprList, List.cons_append, List.mem_cons, List.mem_append, not_or]
    exact ⟨by decide, reprStr_newline s, ht ss⟩

end Verif.TextGen
