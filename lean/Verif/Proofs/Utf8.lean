import Verif.Model.Utf8
import Verif.Spec.Utf8
import Mathlib.Data.List.Forall2
/-! # The bytes of a text -/

namespace Seiren
open Spec

theorem char_range (c : Char) : c.toNat < 0xD800 ∨ (0xDFFF < c.toNat ∧ c.toNat < 0x110000) := by
  have := c.valid
  exact this

theorem toNat_ofNat_char {n : Nat} (h : n < 0xD800 ∨ (0xDFFF < n ∧ n < 0x110000)) : (Char.ofNat n).toNat = n := by
  have hv : n.isValidChar := h
  rw [Char.ofNat, dif_pos hv]
  simp [Char.ofNatAux, Char.toNat]

theorem charBytes_encode (c : Char) : CharBytes c ((encodeChar c).map UInt8.toNat) := by
  have hc := char_range c
  unfold encodeChar
  generalize hn : c.toNat = n at hc
  refine ⟨?_, ?_⟩
  · rw [hn]
    simp only
    split
    · have : n % 256 = n := by omega
      simp only [List.map_cons, List.map_nil, UInt8.toNat_ofNat', Nat.reducePow, this]
      exact .one (by omega)
    split
    · have := Bits.two (a := n / 64) (b := n % 64) (by omega) (by omega)
      convert this using 1
      · simp; omega
      · omega
    split
    · have := Bits.three (a := n / 4096) (b := n / 64 % 64) (c := n % 64) (by omega) (by omega) (by omega)
      convert this using 1
      · simp; omega
      · omega
    · have := Bits.four (a := n / 262144) (b := n / 4096 % 64) (c := n / 64 % 64) (d := n % 64) (by omega) (by omega) (by omega) (by omega)
      convert this using 1
      · simp; omega
      · omega
  · intro bs' hb
    rw [hn] at hb
    simp only [List.length_map]
    split
    · cases hb <;> simp
    split
    · cases hb <;> simp; omega
    split
    · cases hb <;> simp <;> omega
    · cases hb <;> simp <;> omega

theorem bits_unique {bs bs' : List Nat} {n n' : Nat} (h : Bits bs n) (h' : Bits bs' n') (hn : n = n') (hl : bs.length = bs'.length) :
    bs = bs' := by
  cases h <;> cases h' <;> simp at hl ⊢ <;> omega

theorem charBytes_unique {c : Char} {bs : List Nat} (h : CharBytes c bs) : bs = (encodeChar c).map UInt8.toNat :=
  bits_unique h.1 (charBytes_encode c).1 rfl (Nat.le_antisymm (h.2 _ (charBytes_encode c).1) ((charBytes_encode c).2 _ h.1))

theorem map_toNat_injective {a b : List UInt8} (h : a.map UInt8.toNat = b.map UInt8.toNat) : a = b :=
  List.map_injective_iff.mpr (fun _ _ h => UInt8.toNat_inj.mp h) h

theorem textBytes_iff (s : Str) (bs : List UInt8) : TextBytes s bs ↔ bs = encodeUtf8 s := by
  constructor
  · rintro ⟨chunks, hf, hb⟩
    apply map_toNat_injective
    rw [hb]
    clear hb
    induction hf with
    | nil => rfl
    | cons h _ ih => rw [List.flatten_cons, ih, charBytes_unique h]; simp [encodeUtf8]
  · rintro rfl
    refine ⟨s.map fun c => (encodeChar c).map UInt8.toNat, ?_, ?_⟩
    · induction s with
      | nil => exact .nil
      | cons c s ih => exact .cons (charBytes_encode c) ih
    · induction s with
      | nil => rfl
      | cons c s ih => 
        rw [encodeUtf8, List.flatMap_cons, List.map_append, List.map_cons, List.flatten_cons]
        exact congrArg _ ih

theorem decode_encodeChar (c : Char) (rest : List UInt8) : decodeUtf8 (encodeChar c ++ rest) = (decodeUtf8 rest).map (c :: ·) := by
  have hc := char_range c
  have hself : Char.ofNat c.toNat = c := Char.ofNat_toNat c
  unfold encodeChar
  generalize hn : c.toNat = n at hc hself
  simp only
  split
  · have : n % 256 = n := by omega
    rw [List.cons_append, List.nil_append]
    conv_lhs => unfold decodeUtf8
    rw [UInt8.toNat_ofNat', show 2 ^ 8 = 256 from rfl, this, hself, if_pos (by omega)]
  split
  · simp only [List.cons_append, List.nil_append, decodeUtf8, UInt8.toNat_ofNat', Nat.reducePow, isContinuation]
    rw [if_neg (by omega), if_pos (by omega), if_pos (by simp; omega)]
    rw [show (n / 64 % 32 + 192) % 256 % 32 * 64 + (n % 64 + 128) % 256 % 64 = n by omega, hself]
  split
  · simp only [List.cons_append, List.nil_append, decodeUtf8, UInt8.toNat_ofNat', Nat.reducePow, isContinuation, secondOfThree]
    rw [if_neg (by omega), if_neg (by omega), if_pos (by omega), if_pos (by simp only [Bool.and_eq_true, decide_eq_true_iff]; omega)]
    rw [show (n / 4096 % 16 + 224) % 256 % 16 * 4096 + (n / 64 % 64 + 128) % 256 % 64 * 64 + (n % 64 + 128) % 256 % 64 = n by omega, hself]
  · simp only [List.cons_append, List.nil_append, decodeUtf8, UInt8.toNat_ofNat', Nat.reducePow, isContinuation, secondOfFour]
    rw [if_neg (by omega), if_neg (by omega), if_neg (by omega), if_pos (by omega),
      if_pos (by simp only [Bool.and_eq_true, decide_eq_true_iff]; omega)]
    rw [show (n / 262144 % 8 + 240) % 256 % 8 * 262144 + (n / 4096 % 64 + 128) % 256 % 64 * 4096 + (n / 64 % 64 + 128) % 256 % 64 * 64 +
      (n % 64 + 128) % 256 % 64 = n by omega, hself]

theorem decode_encode (s : Str) : decodeUtf8 (encodeUtf8 s) = some s := by
  induction s with
  | nil => rfl
  | cons c s ih =>
    rw [encodeUtf8, List.flatMap_cons, decode_encodeChar]
    rw [encodeUtf8] at ih
    rw [ih]; rfl

theorem decode_some (bs : List UInt8) (s : Str) (h : decodeUtf8 bs = some s) : bs = encodeUtf8 s := by
  have step : ∀ {n : Nat} {b : List UInt8} {rest : List UInt8} {s : Str}, (n < 0xD800 ∨ (0xDFFF < n ∧ n < 0x110000)) →
      (Bits (b.map UInt8.toNat) n ∧ (n < 0x80 → b.length ≤ 1) ∧ (n < 0x800 → b.length ≤ 2) ∧ (n < 0x10000 → b.length ≤ 3)) →
      (∀ s, decodeUtf8 rest = some s → rest = encodeUtf8 s) → (decodeUtf8 rest).map (Char.ofNat n :: ·) = some s →
      b ++ rest = encodeUtf8 s := by
    intro n b rest s hn hb ih h
    obtain ⟨s', hs', rfl⟩ := Option.map_eq_some_iff.mp h
    rw [encodeUtf8, List.flatMap_cons, ← encodeUtf8, ← ih s' hs']
    congr 1
    apply map_toNat_injective
    apply charBytes_unique
    rw [CharBytes, toNat_ofNat_char hn]
    refine ⟨hb.1, fun bs' hb' => ?_⟩
    rw [List.length_map]
    have h4 : b.length ≤ 4 := by
      have h0 : ∀ {l : List Nat} {n : Nat}, Bits l n → l.length ≤ 4 := fun h => by cases h <;> simp
      rw [← List.length_map (f := UInt8.toNat)]
      exact h0 hb.1
    cases hb' <;> simp only [List.length_cons, List.length_nil] <;> omega
  fun_induction decodeUtf8 bs generalizing s
  case case1 => cases h; rfl
  case case2 b0 rest h0 ih =>
    exact step (b := [b0]) (by omega) ⟨.one h0, by simp⟩ ih h
  case case3 b0 h0 h1 b1 rest h2 ih =>
    simp only [isContinuation, decide_eq_true_iff] at h2
    refine step (b := [b0, b1]) (by omega) ⟨?_, by simp; omega⟩ ih h
    have := Bits.two (a := b0.toNat % 32) (b := b1.toNat % 64) (by omega) (by omega)
    convert this using 1
    · simp; omega
    · omega
  case case6 b0 h0 h1 h2 b1 b2 rest h3 ih =>
    simp only [isContinuation, secondOfThree, Bool.and_eq_true, decide_eq_true_iff] at h3
    refine step (b := [b0, b1, b2]) (by omega) ⟨?_, by simp; omega⟩ ih h
    have := Bits.three (a := b0.toNat % 16) (b := b1.toNat % 64) (c := b2.toNat % 64) (by omega) (by omega) (by omega)
    convert this using 1
    · simp; omega
    · omega
  case case9 b0 h0 h1 h2 h3 b1 b2 b3 rest h4 ih =>
    simp only [isContinuation, secondOfFour, Bool.and_eq_true, decide_eq_true_iff] at h4
    refine step (b := [b0, b1, b2, b3]) (by omega) ⟨?_, by simp; omega⟩ ih h
    have := Bits.four (a := b0.toNat % 8) (b := b1.toNat % 64) (c := b2.toNat % 64) (d := b3.toNat % 64) (by omega) (by omega)
      (by omega) (by omega)
    convert this using 1
    · simp; omega
    · omega
  all_goals cases h

end Seiren
