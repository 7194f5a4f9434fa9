import Verif.Model.IeeeDraw
import Verif.Props.Ieee
/-! # Numbers as values of `f32`: the operations of the drawing -/

namespace Seiren
open Spec

/-- The value of `f32` for a number of the format; zero is `0.0`, not `-0.0`. -/
def Spec.ofNum (q : Rat) : Fl := if q = 0 then .zero false else .fin q

/-- A number of the format, not above 2^k. -/
structure Num (k : Nat) (q : Rat) : Prop where
  fmt : IsF32 q
  le : |q| ≤ 2 ^ k

theorem val_ofNum {q : Rat} (h : IsF32 q) : Val (ofNum q) q := by
  unfold ofNum
  split
  · rename_i h0; exact h0
  · rename_i h0; exact ⟨rfl, h0, h⟩

theorem ofNum_of_val {x : Fl} {q : Rat} (h : Val x q) (hs : x ≠ .zero true) : x = ofNum q := by
  rcases h.cases with ⟨s, rfl, rfl⟩ | ⟨rfl, h0⟩
  · cases s
    · rfl
    · exact absurd rfl hs
  · rw [ofNum, if_neg h0]

theorem ofNum_ne (q : Rat) : ofNum q ≠ .zero true := by
  unfold ofNum; split <;> simp

theorem isF32_two_pow (k : Nat) (h : k ≤ 104) : IsF32 (2 ^ k) := ⟨1, k, by norm_num, by omega, by exact_mod_cast h, by simp⟩

theorem Num.mono {k l : Nat} {q : Rat} (h : Num k q) (hkl : k ≤ l) : Num l q :=
  ⟨h.fmt, h.le.trans (pow_le_pow_right₀ (by norm_num) hkl)⟩

theorem num_zero (k : Nat) : Num k 0 := ⟨isF32_zero, by rw [abs_zero]; positivity⟩

theorem num_ofInt {k : Nat} (n : Int) (h : |n| < 2 ^ 24) (hk : |(n : Rat)| ≤ 2 ^ k) : Num k (n : Rat) :=
  ⟨⟨n, 0, h, by norm_num, by norm_num, by simp⟩, hk⟩

/-- Rounding does not leave the range of a power of two. -/
theorem num_round {k : Nat} (hk : k ≤ 104) {q : Rat} (h : |q| ≤ 2 ^ k) : Num k (roundF32 q) := by
  have hb : (2 : Rat) ^ k ≤ 2 ^ 104 := pow_le_pow_right₀ (by norm_num) hk
  refine ⟨roundF32_format (lt_of_le_of_lt (h.trans hb) (by norm_num)), ?_⟩
  rw [abs_le] at h ⊢
  have e := roundF32_exact _ (isF32_two_pow k hk)
  have h1 := roundF32_le h.1
  have h2 := roundF32_le h.2
  rw [roundF32_neg, e] at h1
  rw [e] at h2
  exact ⟨h1, h2⟩

theorem below_of_le {k : Nat} (hk : k ≤ 126) {q : Rat} (h : |q| ≤ 2 ^ k) : |q| < 2 ^ 128 - 2 ^ 103 :=
  lt_of_le_of_lt (h.trans (pow_le_pow_right₀ (by norm_num) hk)) (by norm_num)

theorem abs_add_two {k : Nat} {p q : Rat} (hp : |p| ≤ 2 ^ k) (hq : |q| ≤ 2 ^ k) : |p + q| ≤ 2 ^ (k + 1) :=
  (abs_add_le p q).trans (by rw [pow_succ]; linarith)

theorem abs_sub_two {k : Nat} {p q : Rat} (hp : |p| ≤ 2 ^ k) (hq : |q| ≤ 2 ^ k) : |p - q| ≤ 2 ^ (k + 1) := by
  rw [sub_eq_add_neg]; exact abs_add_two hp (by rwa [abs_neg])

theorem num_add {k : Nat} (hk : k + 1 ≤ 104) {p q : Rat} (hp : Num k p) (hq : Num k q) : Num (k + 1) (roundF32 (p + q)) :=
  num_round hk (abs_add_two hp.le hq.le)

theorem num_sub {k : Nat} (hk : k + 1 ≤ 104) {p q : Rat} (hp : Num k p) (hq : Num k q) : Num (k + 1) (roundF32 (p - q)) :=
  num_round hk (abs_sub_two hp.le hq.le)

/-! ## No sum becomes `-0.0` -/

theorem isF32_grid {q : Rat} (h : IsF32 q) : ∃ n : Int, q = n * 2 ^ (-149 : Int) := by
  obtain ⟨m, e, -, he, -, rfl⟩ := h
  refine ⟨m * 2 ^ (e + 149).toNat, ?_⟩
  push_cast
  rw [mul_assoc]
  congr 1
  rw [← zpow_natCast, ← zpow_add₀ (by norm_num)]
  congr 1
  omega

theorem round_add_ne_zero {p q : Rat} (hp : IsF32 p) (hq : IsF32 q) (h : p + q ≠ 0) : roundF32 (p + q) ≠ 0 := by
  obtain ⟨a, rfl⟩ := isF32_grid hp
  obtain ⟨b, rfl⟩ := isF32_grid hq
  have hpos := two_zpow_pos (-149)
  rw [← add_mul, ← Int.cast_add] at h ⊢
  have hn : a + b ≠ 0 := by intro h0; rw [h0] at h; simp at h
  have ht : IsF32 ((2 : Rat) ^ (-149 : Int)) := ⟨1, -149, by norm_num, by norm_num, by norm_num, by simp⟩
  have e := roundF32_exact _ ht
  rcases lt_or_gt_of_ne hn with h0 | h0
  · have h1 : ((a + b : Int) : Rat) ≤ -1 := by exact_mod_cast Int.le_sub_one_of_lt h0
    have := roundF32_le (show ((a + b : Int) : Rat) * 2 ^ (-149 : Int) ≤ -2 ^ (-149 : Int) by nlinarith)
    rw [roundF32_neg, e] at this
    intro h2; rw [h2] at this; linarith
  · have h1 : (1 : Rat) ≤ ((a + b : Int) : Rat) := by exact_mod_cast h0
    have := roundF32_le (show (2 : Rat) ^ (-149 : Int) ≤ ((a + b : Int) : Rat) * 2 ^ (-149 : Int) by nlinarith)
    rw [e] at this
    intro h2; rw [h2] at this; linarith

theorem ofRat_sum {p q : Rat} (hp : IsF32 p) (hq : IsF32 q) : Fl.ofRat false (p + q) ≠ .zero true := by
  unfold Fl.ofRat
  by_cases h0 : p + q = 0
  · rw [if_pos h0]; simp
  · rw [if_neg h0, if_neg (round_add_ne_zero hp hq h0)]
    split <;> simp

theorem neg_ofNum (q : Rat) : Fl.neg (ofNum q) = if q = 0 then .zero true else ofNum (-q) := by
  unfold ofNum
  by_cases h : q = 0
  · simp [h, Fl.neg]
  · simp [h, Fl.neg]

theorem ofNum_zero : ofNum 0 = .zero false := if_pos rfl
theorem ofNum_ne_zero {q : Rat} (h : q ≠ 0) : ofNum q = .fin q := if_neg h

section
variable {p q : Rat} (hp : IsF32 p) (hq : IsF32 q)
include hp hq

theorem fl_add (h : |p + q| < 2 ^ 128 - 2 ^ 103) : Fl.add (ofNum p) (ofNum q) = ofNum (roundF32 (p + q)) := by
  refine ofNum_of_val (val_add (val_ofNum hp) (val_ofNum hq) h) ?_
  have key := ofRat_sum hp hq
  by_cases h0 : p = 0 <;> by_cases h1 : q = 0
  · subst h0 h1; simp [ofNum_zero, Fl.add]
  · subst h0; rw [ofNum_zero, ofNum_ne_zero h1]; exact key
  · subst h1; rw [ofNum_zero, ofNum_ne_zero h0]; exact key
  · rw [ofNum_ne_zero h0, ofNum_ne_zero h1]; exact key

theorem fl_sub (h : |p - q| < 2 ^ 128 - 2 ^ 103) : Fl.sub (ofNum p) (ofNum q) = ofNum (roundF32 (p - q)) := by
  unfold Fl.sub
  rw [neg_ofNum]
  by_cases h1 : q = 0
  · subst h1
    rw [if_pos rfl, sub_zero, roundF32_exact p hp]
    by_cases h0 : p = 0
    · subst h0; simp [ofNum_zero, Fl.add]
    · rw [ofNum_ne_zero h0]
      refine (ofNum_of_val ?_ ?_).trans (ofNum_ne_zero h0)
      · have := val_add (x := .fin p) (y := .zero true) (q := 0) ⟨rfl, h0, hp⟩ (val_zero true)
          (by rw [add_zero]; exact (isF32_abs hp).trans_lt f32Max_lt)
        rwa [add_zero, roundF32_exact p hp] at this
      · have := ofRat_sum hp isF32_zero
        simpa [Fl.add, Fl.toRat] using this
  · rw [if_neg h1, sub_eq_add_neg]
    exact fl_add hp (isF32_neg hq) (by rwa [← sub_eq_add_neg])

theorem fl_lt : Fl.lt (ofNum p) (ofNum q) = decide (p < q) := val_lt (val_ofNum hp) (val_ofNum hq)
theorem fl_le : Fl.le (ofNum p) (ofNum q) = decide (p ≤ q) := val_le (val_ofNum hp) (val_ofNum hq)
theorem fl_eq : Fl.eq (ofNum p) (ofNum q) = decide (p = q) := val_eq (val_ofNum hp) (val_ofNum hq)

theorem fl_max (tie : Fl → Fl → Bool) : Fl.max tie (ofNum p) (ofNum q) = ofNum (max p q) := by
  refine ofNum_of_val (val_max tie (val_ofNum hp) (val_ofNum hq)) ?_
  have h1 := ofNum_ne p
  have h2 := ofNum_ne q
  unfold Fl.max
  split_ifs <;> assumption

theorem fl_min (tie : Fl → Fl → Bool) : Fl.min tie (ofNum p) (ofNum q) = ofNum (min p q) := by
  refine ofNum_of_val (val_min tie (val_ofNum hp) (val_ofNum hq)) ?_
  have h1 := ofNum_ne p
  have h2 := ofNum_ne q
  unfold Fl.min
  split_ifs <;> assumption

end

theorem ofRat_nonneg {q : Rat} (h : 0 ≤ q) : Fl.ofRat false q ≠ .zero true := by
  unfold Fl.ofRat
  have : decide (q < 0) = false := decide_eq_false (not_lt.mpr h)
  rw [this]
  split_ifs <;> simp

theorem sign_ofNum {q : Rat} (h : 0 ≤ q) : (ofNum q).sign = false := by
  unfold ofNum
  split
  · rfl
  · exact decide_eq_false (not_lt.mpr h)

section
variable {p q : Rat} (hp : IsF32 p) (hq : IsF32 q) (p0 : 0 ≤ p)
include hp hq p0

theorem fl_mul (q0 : 0 ≤ q) (h : |p * q| < 2 ^ 128 - 2 ^ 103) : Fl.mul (ofNum p) (ofNum q) = ofNum (roundF32 (p * q)) := by
  refine ofNum_of_val (val_mul (val_ofNum hp) (val_ofNum hq) h) ?_
  have key := ofRat_nonneg (mul_nonneg p0 q0)
  have s1 := sign_ofNum p0
  have s2 := sign_ofNum q0
  by_cases h0 : p = 0 <;> by_cases h1 : q = 0
  · subst h0 h1; simp [ofNum_zero, Fl.mul, Fl.sign, Fl.ofRat, Fl.toRat]
  · subst h0; rw [ofNum_ne_zero h1] at s2 ⊢; simp [ofNum_zero, Fl.mul, Fl.ofRat, Fl.toRat, s2]; simp [Fl.sign]
  · subst h1; rw [ofNum_ne_zero h0] at s1 ⊢; simp [ofNum_zero, Fl.mul, Fl.ofRat, Fl.toRat, s1]; simp [Fl.sign]
  · rw [ofNum_ne_zero h0] at s1 ⊢
    rw [ofNum_ne_zero h1] at s2 ⊢
    rw [Fl.mul, s1, s2]
    · exact key
    all_goals simp

theorem fl_div (q0 : 0 < q) (h : |p / q| < 2 ^ 128 - 2 ^ 103) : Fl.div (ofNum p) (ofNum q) = ofNum (roundF32 (p / q)) := by
  refine ofNum_of_val (val_div (val_ofNum hp) (val_ofNum hq) q0.ne' h) ?_
  have key := ofRat_nonneg (div_nonneg p0 q0.le)
  have s1 := sign_ofNum p0
  have s2 := sign_ofNum q0.le
  have h1 := q0.ne'
  by_cases h0 : p = 0
  · subst h0; rw [ofNum_ne_zero h1] at s2 ⊢; simp [ofNum_zero, Fl.div, Fl.ofRat, Fl.toRat, s2]; simp [Fl.sign]
  · rw [ofNum_ne_zero h0] at s1 ⊢
    rw [ofNum_ne_zero h1] at s2 ⊢
    rw [Fl.div, s1, s2]
    · exact key
    all_goals simp

end

theorem fl_ofNat {n : Nat} (h : (n : Rat) ≤ 2 ^ 126) : Fl.ofNat n = ofNum (roundF32 n) := by
  have h0 : (0 : Rat) ≤ n := Nat.cast_nonneg n
  refine ofNum_of_val (val_ofRat (below_of_le (le_refl 126) (by rwa [abs_of_nonneg h0])) false) (ofRat_nonneg h0)

/-- The text of the number. -/
theorem display_ofNum (q : Rat) : (ofNum q).display = displayF32 q := by
  unfold ofNum
  split
  · rename_i h0; rw [h0, displayF32, if_pos rfl]; rfl
  · rfl

end Seiren
