import Verif.Proofs.Display
/-! # Decimal numbers as text, without superfluous digits -/

namespace Seiren
open Spec

namespace Spec

/-- A decimal number without superfluous digits: digits, not starting with 0 unless there is just one digit, and possibly a point and further
digits, the last of which is not 0. -/
def Plain (s : Str) : Prop :=
  ∃ n f : Str, (f = [] ∧ s = n ∨ f ≠ [] ∧ s = n ++ '.' :: f) ∧ n ≠ [] ∧ n.all Char.isDigit = true ∧ f.all Char.isDigit = true ∧
    (n.head? = some '0' → n = c!"0") ∧ f.getLast? ≠ some '0'

end Spec

/-! ## Different texts without superfluous digits are different numbers -/

/-- The value of digits. -/
def digitsValue (s : Str) : Nat := s.foldl (fun n c => 10 * n + (c.toNat - 48)) 0

theorem digitsValue_snoc (s : Str) (c : Char) : digitsValue (s ++ [c]) = 10 * digitsValue s + (c.toNat - 48) := by
  simp [digitsValue, List.foldl_append]

theorem digit_lt {c : Char} (h : c.isDigit = true) : c.toNat - 48 < 10 ∧ 48 ≤ c.toNat := by
  simp only [Char.isDigit, Bool.and_eq_true, decide_eq_true_eq] at h
  obtain ⟨h1, h2⟩ := h
  have a1 : (48 : UInt32).toNat ≤ c.val.toNat := UInt32.le_iff_toNat_le.mp h1
  have a2 : c.val.toNat ≤ (57 : UInt32).toNat := UInt32.le_iff_toNat_le.mp h2
  have e1 : (48 : UInt32).toNat = 48 := by decide
  have e2 : (57 : UInt32).toNat = 57 := by decide
  simp only [Char.toNat]
  omega

theorem digit_inj {c d : Char} (hc : c.isDigit = true) (hd : d.isDigit = true) (h : c.toNat - 48 = d.toNat - 48) : c = d := by
  have h1 := digit_lt hc
  have h2 := digit_lt hd
  have h3 : c.toNat = d.toNat := by omega
  exact Char.toNat_inj.mp h3

theorem digitsValue_lt (s : Str) (h : s.all Char.isDigit = true) : digitsValue s < 10 ^ s.length := by
  induction s using List.reverseRecOn with
  | nil => simp [digitsValue]
  | append_singleton s c ih =>
    rw [List.all_append, Bool.and_eq_true] at h
    have := ih h.1
    have hc := digit_lt (c := c) (by simpa using h.2)
    rw [digitsValue_snoc, List.length_append, List.length_singleton, pow_succ]
    omega

theorem digitsValue_append (s t : Str) : digitsValue (s ++ t) = digitsValue s * 10 ^ t.length + digitsValue t := by
  induction t using List.reverseRecOn with
  | nil => simp [digitsValue]
  | append_singleton t c ih =>
    rw [← List.append_assoc, digitsValue_snoc, ih, digitsValue_snoc, List.length_append, List.length_singleton, pow_succ]
    ring

/-- Equally many digits with the same value. -/
theorem digits_eq {s t : Str} (hs : s.all Char.isDigit = true) (ht : t.all Char.isDigit = true) (hl : s.length = t.length)
    (h : digitsValue s = digitsValue t) : s = t := by
  induction s using List.reverseRecOn generalizing t with
  | nil => exact (List.length_eq_zero_iff.mp hl.symm).symm
  | append_singleton s c ih =>
    rcases List.eq_nil_or_concat t with rfl | ⟨t, d, rfl⟩
    · simp at hl
    · rw [List.concat_eq_append] at *
      rw [List.all_append, Bool.and_eq_true] at hs ht
      have hc : c.isDigit = true := by simpa using hs.2
      have hd : d.isDigit = true := by simpa using ht.2
      have h1 := digit_lt hc
      have h2 := digit_lt hd
      rw [digitsValue_snoc, digitsValue_snoc] at h
      rw [ih hs.1 ht.1 (by simpa using hl) (by omega), digit_inj hc hd (by omega)]

theorem digitsValue_pos {c : Char} {s : Str} (hc : c.isDigit = true) (h0 : c ≠ '0') : 10 ^ s.length ≤ digitsValue (c :: s) := by
  rw [← List.singleton_append, digitsValue_append]
  have h1 := digit_lt hc
  have h2 : digitsValue [c] = c.toNat - 48 := by simp [digitsValue]
  have h3 : 1 ≤ c.toNat - 48 := by
    by_contra hlt
    exact h0 (digit_inj hc (by decide) (by have : '0'.toNat - 48 = 0 := by decide
                                           omega))
  rw [h2]
  calc 10 ^ s.length ≤ (c.toNat - 48) * 10 ^ s.length := Nat.le_mul_of_pos_left _ h3
    _ ≤ _ := Nat.le_add_right _ _

/-- Digits without a superfluous 0 before them, with the same value. -/
theorem digits_eq_plain {s t : Str} (hs : s.all Char.isDigit = true) (ht : t.all Char.isDigit = true) (hs0 : s ≠ []) (ht0 : t ≠ [])
    (hsp : s.head? = some '0' → s = c!"0") (htp : t.head? = some '0' → t = c!"0") (h : digitsValue s = digitsValue t) : s = t := by
  obtain ⟨a, s', rfl⟩ := List.exists_cons_of_ne_nil hs0
  obtain ⟨b, t', rfl⟩ := List.exists_cons_of_ne_nil ht0
  have ha : a.isDigit = true := by simp at hs; exact hs.1
  have hb : b.isDigit = true := by simp at ht; exact ht.1
  have za : a = '0' → digitsValue (a :: s') = 0 := fun e => by rw [hsp (by rw [e]; rfl)]; decide
  have zb : b = '0' → digitsValue (b :: t') = 0 := fun e => by rw [htp (by rw [e]; rfl)]; decide
  by_cases ea : a = '0'
  · by_cases eb : b = '0'
    · rw [hsp (by rw [ea]; rfl), htp (by rw [eb]; rfl)]
    · have := digitsValue_pos (s := t') hb eb
      have h1 : 0 < 10 ^ t'.length := by positivity
      have := za ea
      omega
  · by_cases eb : b = '0'
    · have := digitsValue_pos (s := s') ha ea
      have h1 : 0 < 10 ^ s'.length := by positivity
      have := zb eb
      omega
    · apply digits_eq hs ht ?_ h
      have l1 := digitsValue_pos (s := s') ha ea
      have l2 := digitsValue_pos (s := t') hb eb
      have u1 := digitsValue_lt _ hs
      have u2 := digitsValue_lt _ ht
      simp only [List.length_cons] at u1 u2 ⊢
      have h1 : s'.length < t'.length + 1 := (Nat.pow_lt_pow_iff_right (by decide : 1 < 10)).mp (by omega)
      have h2 : t'.length < s'.length + 1 := (Nat.pow_lt_pow_iff_right (by decide : 1 < 10)).mp (by omega)
      omega

/-- What a text without superfluous digits is read as. -/
theorem plain_value {s n f : Str} (hs : f = [] ∧ s = n ∨ f ≠ [] ∧ s = n ++ '.' :: f) (hn : n ≠ []) (hnd : n.all Char.isDigit = true)
    (hfd : f.all Char.isDigit = true) : unsigned s = some ((digitsValue (n ++ f) : Rat) / 10 ^ f.length) := by
  have nat : ∀ {t : Str}, t ≠ [] → t.all Char.isDigit = true → natural t = some (digitsValue t) := fun h1 h2 => by
    unfold natural
    rw [if_pos ⟨h1, h2⟩]
    rfl
  rcases hs with ⟨rfl, rfl⟩ | ⟨hf, rfl⟩
  · obtain ⟨-, h2⟩ := span_append (digits_no_point hnd) (rest := []) (by simp)
    rw [List.append_nil] at h2
    rw [unsigned, h2]
    simp [nat hn hnd]
  · obtain ⟨h1, h2⟩ := span_append (digits_no_point hnd) (rest := '.' :: f) (by simp)
    rw [unsigned, h2]
    simp only
    rw [h1, nat hn hnd, nat hf hfd]
    simp only [Option.some.injEq]
    rw [digitsValue_append]
    push_cast
    field_simp

/-- A number has only one text without superfluous digits. -/
theorem plain_unique {s t : Str} (hs : Plain s) (ht : Plain t) (h : unsigned s = unsigned t) : s = t := by
  obtain ⟨n, f, h1, h2, h3, h4, h5, h6⟩ := hs
  obtain ⟨n', f', h1', h2', h3', h4', h5', h6'⟩ := ht
  rw [plain_value h1 h2 h3 h4, plain_value h1' h2' h3' h4', Option.some.injEq] at h
  have key : ∀ {n f n' f' : Str}, f.all Char.isDigit = true → f.getLast? ≠ some '0' →
      ((digitsValue (n ++ f) : Rat) / 10 ^ f.length = (digitsValue (n' ++ f') : Rat) / 10 ^ f'.length) → f.length ≤ f'.length := by
    intro n f n' f' hf hlast h
    by_contra hlt
    obtain ⟨k, hk⟩ := Nat.exists_eq_add_of_lt (Nat.lt_of_not_le hlt)
    rcases List.eq_nil_or_concat f with rfl | ⟨g, d, rfl⟩
    · simp at hk
    rw [List.concat_eq_append] at *
    rw [List.all_append, Bool.and_eq_true] at hf
    have hd : d.isDigit = true := by simpa using hf.2
    have hd0 : d.toNat - 48 ≠ 0 := by
      intro e
      apply hlast
      rw [List.getLast?_concat, digit_inj hd (by decide : '0'.isDigit = true) (by rw [e]; decide)]
    rw [hk, div_eq_div_iff (by positivity) (by positivity), show f'.length + k + 1 = f'.length + (k + 1) by omega, pow_add,
      ← mul_assoc, mul_right_comm] at h
    have h := mul_right_cancel₀ (by positivity) h
    have h : digitsValue (n ++ (g ++ [d])) = digitsValue (n' ++ f') * 10 ^ (k + 1) := by exact_mod_cast h
    rw [← List.append_assoc, digitsValue_snoc, pow_succ, ← mul_assoc] at h
    have := digit_lt hd
    omega
  have hl : f.length = f'.length := le_antisymm (key h4 h6 h) (key h4' h6' h.symm)
  rw [hl, div_left_inj' (by positivity)] at h
  have h : digitsValue (n ++ f) = digitsValue (n' ++ f') := by exact_mod_cast h
  rw [digitsValue_append, digitsValue_append, hl] at h
  have l1 := digitsValue_lt f h4
  have l2 := digitsValue_lt f' h4'
  rw [hl] at l1
  have hp : 0 < 10 ^ f'.length := by positivity
  have e1 : digitsValue n = digitsValue n' := by
    have a1 := congrArg (· / 10 ^ f'.length) h
    rwa [mul_comm, Nat.mul_add_div hp, Nat.div_eq_of_lt l1, mul_comm, Nat.mul_add_div hp, Nat.div_eq_of_lt l2, Nat.add_zero,
      Nat.add_zero] at a1
  have e2 : digitsValue f = digitsValue f' := by rw [e1] at h; omega
  have en := digits_eq_plain h3 h3' h2 h2' h5 h5' e1
  have ef := digits_eq h4 h4' hl e2
  subst en
  subst ef
  rcases h1 with ⟨a, rfl⟩ | ⟨a, rfl⟩ <;> rcases h1' with ⟨b, rfl⟩ | ⟨b, rfl⟩
  · rfl
  · exact absurd a b
  · exact absurd b a
  · rfl

/-! ## The printed text -/

theorem toDigits_head {c : Nat} : (Nat.toDigits 10 c).head? = some '0' → Nat.toDigits 10 c = c!"0" := by
  induction c using Nat.strongRecOn with
  | _ c ih =>
    intro h
    rcases Nat.lt_or_ge c 10 with hc | hc
    · rw [Nat.toDigits_of_lt_base hc] at h ⊢
      simp only [List.head?_cons, Option.some.injEq] at h
      rw [h]
    · exfalso
      have hpos : 0 < c / 10 := by omega
      have e := Nat.toDigits_append_toDigits (b := 10) (n := c / 10) (d := c % 10) (by decide) hpos (Nat.mod_lt _ (by decide))
      rw [Nat.div_add_mod] at e
      rw [← e, List.head?_append_of_ne_nil _ (toDigits_ne_nil _)] at h
      have h0 := ih (c / 10) (by omega) h
      have hn := natural_toDigits (c / 10)
      rw [h0] at hn
      have : natural c!"0" = some 0 := by decide
      rw [this, Option.some.injEq] at hn
      omega

theorem toDigits_last {c : Nat} (h : c % 10 ≠ 0) : (Nat.toDigits 10 c).getLast? ≠ some '0' := by
  intro hl
  have e : digitsValue (Nat.toDigits 10 c) = c := by
    have := natural_toDigits c
    unfold natural at this
    rw [if_pos ⟨toDigits_ne_nil c, toDigits_digits c⟩] at this
    exact Option.some.inj this
  rcases List.eq_nil_or_concat (Nat.toDigits 10 c) with hn | ⟨g, d, hg⟩
  · exact toDigits_ne_nil c hn
  · rw [List.concat_eq_append] at hg
    rw [hg, List.getLast?_concat, Option.some.injEq] at hl
    subst hl
    rw [hg, digitsValue_snoc] at e
    have : '0'.toNat - 48 = 0 := by decide
    omega

/-- The text of a decimal number has no superfluous digits if the power of ten is as great as possible. -/
theorem decimalText_plain {c : Nat} {k : Int} (hc : c % 10 ≠ 0) : Plain (decimalText c k) := by
  have hcpos : 0 < c := by omega
  unfold decimalText
  split
  · refine ⟨_, [], .inl ⟨rfl, rfl⟩, by simp, ?_, rfl, ?_, by simp⟩
    · rw [List.all_append, toDigits_digits, zeros_digits]; rfl
    · rw [List.head?_append_of_ne_nil _ (toDigits_ne_nil _)]
      intro h
      have h0 := toDigits_head h
      have hn := natural_toDigits c
      rw [h0, show natural c!"0" = some 0 by decide] at hn
      cases hn
      omega
  · rename_i hk
    obtain ⟨d, hd⟩ := Int.eq_ofNat_of_zero_le (show 0 ≤ -k by omega)
    simp only [hd, Int.toNat_natCast]
    have hdpos : 0 < d := by omega
    have hmod : c % 10 ^ d % 10 = c % 10 := Nat.mod_mod_of_dvd _ (dvd_pow_self 10 (by omega))
    refine ⟨Nat.toDigits 10 (c / 10 ^ d), List.replicate (d - (Nat.toDigits 10 (c % 10 ^ d)).length) '0' ++ Nat.toDigits 10 (c % 10 ^ d),
      .inr ⟨by simp, by simp⟩, toDigits_ne_nil _, toDigits_digits _, ?_, toDigits_head, ?_⟩
    · rw [List.all_append, toDigits_digits, zeros_digits]; rfl
    · rw [List.getLast?_append_of_ne_nil _ (toDigits_ne_nil _)]
      exact toDigits_last (by omega)

theorem Spec.ShortestDecimal.last {x : Rat} {c : Nat} {k : Int} (h : ShortestDecimal x c k) : c % 10 ≠ 0 := by
  intro h0
  have : k + 1 ≤ k := h.shortest (c / 10) (k + 1) (by
    have e : (c : Rat) = 10 * ((c / 10 : Nat) : Rat) := by
      have : c = 10 * (c / 10) := by omega
      exact_mod_cast this
    rw [zpow_add₀ (by norm_num), zpow_one, mul_comm ((10 : Rat) ^ k), ← mul_assoc, mul_comm ((c / 10 : Nat) : Rat), ← e]
    exact h.reads)
  omega

end Seiren
