import Mathlib.Tactic.Ring
import Mathlib.Tactic.Linarith
import Mathlib.Tactic.NormNum
import Mathlib.Tactic.FieldSimp
import Mathlib.Tactic.Positivity
import Verif.Model.F32
import Verif.Proofs.Ports
/-! # C55: single-precision placement is exact -/

namespace Seiren

namespace Spec

/-- The finite numbers of the format binary32: an integer of at most 24 bits times a power of two between 2^-149 and
2^104. -/
def IsF32 (q : Rat) : Prop := ∃ m e : Int, |m| < 2 ^ 24 ∧ -149 ≤ e ∧ e ≤ 104 ∧ q = m * 2 ^ e

end Spec
open Spec

/-! ## The rounding function -/

theorem roundHalfEven_int (n : Int) : roundHalfEven (n : Rat) = n := by
  unfold roundHalfEven
  simp [Rat.floor_intCast]

/-- No integer is nearer than the rounded one. -/
theorem roundHalfEven_nearest (q : Rat) (n : Int) : |(roundHalfEven q : Rat) - q| ≤ |(n : Rat) - q| := by
  have h1 : ((q.floor : Int) : Rat) ≤ q := Rat.floor_le q
  have h2 : q < ((q.floor : Int) : Rat) + 1 := by
    have := Rat.lt_floor_add_one q
    push_cast at this
    exact this
  have hn : n ≤ q.floor ∨ q.floor + 1 ≤ n := by omega
  have hn' : (n : Rat) ≤ (q.floor : Rat) ∨ (q.floor : Rat) + 1 ≤ n := by
    rcases hn with h | h
    · left; exact_mod_cast h
    · right; exact_mod_cast h
  unfold roundHalfEven
  simp only
  split_ifs with a b c
  all_goals (push_cast; rw [abs_le]; rcases hn' with h | h)
  all_goals constructor
  all_goals (first | (rw [abs_of_nonpos (by linarith)]; linarith) | (rw [abs_of_nonneg (by linarith)]; linarith))

theorem two_zpow_pos (e : Int) : (0 : Rat) < 2 ^ e := zpow_pos (by norm_num) e

theorem ulpExp_le {q : Rat} (hq : q ≠ 0) {m e : Int} (hm : |m| < 2 ^ 24) (he : -149 ≤ e) (h : q = m * 2 ^ e) :
    ulpExp q ≤ e := by
  have hpos : 0 < |q| := abs_pos.mpr hq
  have : |q| < (2 : Rat) ^ (e + 24) := by
    rw [h, abs_mul, abs_of_pos (two_zpow_pos e), zpow_add₀ (by norm_num), mul_comm]
    apply mul_lt_mul_of_pos_left _ (two_zpow_pos e)
    have : ((|m| : Int) : Rat) < ((2 ^ 24 : Int) : Rat) := by exact_mod_cast hm
    rw [Int.cast_abs] at this
    norm_num at this ⊢
    exact this
  have := (Int.lt_zpow_iff_log_lt (b := 2) (by norm_num) hpos).mp (by exact_mod_cast this)
  unfold ulpExp
  omega

/-- Rounding does not change a number of the format. -/
theorem roundF32_exact (q : Rat) (h : IsF32 q) : roundF32 q = q := by
  unfold roundF32
  split
  · rename_i h0; exact h0.symm
  · rename_i h0
    obtain ⟨m, e, hm, he, -, rfl⟩ := h
    have hle := ulpExp_le h0 hm he rfl
    generalize ulpExp ((m : Rat) * 2 ^ e) = u at hle
    obtain ⟨d, hd⟩ := Int.eq_ofNat_of_zero_le (sub_nonneg.mpr hle)
    have e1 : (m : Rat) * 2 ^ e / 2 ^ u = ((m * 2 ^ d : Int) : Rat) := by
      rw [mul_div_assoc, ← zpow_sub₀ (by norm_num), hd]
      push_cast
      simp
    rw [e1, roundHalfEven_int, ← e1]
    field_simp

/-- No number of the format is nearer than the rounded one. -/
theorem roundF32_nearest (q r : Rat) (hr : IsF32 r) : |roundF32 q - q| ≤ |r - q| := by
  by_cases h0 : q = 0
  · simp [roundF32, h0]
  obtain ⟨m, e, hm, he, -, rfl⟩ := hr
  unfold roundF32
  rw [if_neg h0]
  have hpos : 0 < |q| := abs_pos.mpr h0
  have hu := two_zpow_pos (ulpExp q)
  -- any integer multiple of the unit is no nearer
  have key : ∀ n : Int, |(roundHalfEven (q / 2 ^ ulpExp q) : Rat) * 2 ^ ulpExp q - q| ≤ |(n : Rat) * 2 ^ ulpExp q - q| := by
    intro n
    have := roundHalfEven_nearest (q / 2 ^ ulpExp q) n
    have hs : ∀ z : Rat, |z * 2 ^ ulpExp q - q| = |z - q / 2 ^ ulpExp q| * 2 ^ ulpExp q := by
      intro z
      rw [show z * 2 ^ ulpExp q - q = (z - q / 2 ^ ulpExp q) * 2 ^ ulpExp q by field_simp, abs_mul, abs_of_pos hu]
    rw [hs, hs]
    exact mul_le_mul_of_nonneg_right this hu.le
  by_cases hue : ulpExp q ≤ e
  · obtain ⟨d, hd⟩ := Int.eq_ofNat_of_zero_le (sub_nonneg.mpr hue)
    have := key (m * 2 ^ d)
    have e1 : ((m * 2 ^ d : Int) : Rat) * 2 ^ ulpExp q = (m : Rat) * 2 ^ e := by
      rw [show e = (d : Int) + ulpExp q by omega, zpow_add₀ (by norm_num)]
      push_cast
      simp [mul_assoc]
    rwa [e1] at this
  · -- `r` is smaller than every number with the unit of `q`
    have hlog : ulpExp q = Int.log 2 |q| - 23 := by unfold ulpExp at hue ⊢; omega
    have hbig : (2 : Rat) ^ (Int.log 2 |q|) ≤ |q| := by
      have := Int.zpow_log_le_self (b := 2) (by norm_num) hpos
      exact_mod_cast this
    have hp : (2 : Rat) ^ (Int.log 2 |q|) = ((2 ^ 23 : Int) : Rat) * 2 ^ ulpExp q := by
      rw [show Int.log 2 |q| = 23 + ulpExp q by omega, zpow_add₀ (by norm_num)]
      norm_num
    have hsmall : |(m : Rat) * 2 ^ e| ≤ (2 : Rat) ^ (Int.log 2 |q|) := by
      rw [abs_mul, abs_of_pos (two_zpow_pos e)]
      have h1 : |(m : Rat)| ≤ 2 ^ (24 : Int) := by
        have : ((|m| : Int) : Rat) ≤ ((2 ^ 24 : Int) : Rat) := by exact_mod_cast hm.le
        rw [Int.cast_abs] at this
        norm_num at this ⊢
        exact this
      calc |(m : Rat)| * 2 ^ e ≤ 2 ^ (24 : Int) * 2 ^ e := mul_le_mul_of_nonneg_right h1 (two_zpow_pos e).le
        _ = (2 : Rat) ^ (24 + e) := by rw [zpow_add₀ (by norm_num)]
        _ ≤ _ := zpow_le_zpow_right₀ (by norm_num) (by omega)
    rw [hp] at hbig hsmall
    rcases le_total 0 q with hq | hq
    · refine (key (2 ^ 23)).trans ?_
      rw [abs_of_nonneg hq] at hbig
      rw [abs_of_nonpos (by linarith), abs_of_nonpos (by linarith [le_abs_self ((m : Rat) * 2 ^ e)])]
      linarith [le_abs_self ((m : Rat) * 2 ^ e)]
    · refine (key (-2 ^ 23)).trans ?_
      rw [abs_of_nonpos hq] at hbig
      have e1 : ((-2 ^ 23 : Int) : Rat) = -((2 ^ 23 : Int) : Rat) := by push_cast; ring
      rw [e1]
      rw [abs_of_nonneg (by linarith), abs_of_nonneg (by linarith [neg_abs_le ((m : Rat) * 2 ^ e)])]
      linarith [neg_abs_le ((m : Rat) * 2 ^ e)]

/-- The rounded number is in the format. -/
theorem roundF32_isF32 (q : Rat) (hq : |q| ≤ f32Max) : IsF32 (roundF32 q) := by
  by_cases h0 : q = 0
  · rw [h0]
    exact ⟨0, 0, by norm_num, by norm_num, by norm_num, by simp [roundF32]⟩
  have hpos : 0 < |q| := abs_pos.mpr h0
  have hu := two_zpow_pos (ulpExp q)
  have hlt : |q| < (2 : Rat) ^ (Int.log 2 |q| + 1) := by
    have := Int.lt_zpow_succ_log_self (b := 2) (by norm_num) |q|
    exact_mod_cast this
  have hulp : -149 ≤ ulpExp q ∧ Int.log 2 |q| - 23 ≤ ulpExp q := by unfold ulpExp; omega
  have hlog : Int.log 2 |q| < 128 := by
    rw [← Int.lt_zpow_iff_log_lt (b := 2) (by norm_num) hpos]
    refine lt_of_le_of_lt hq ?_
    unfold f32Max
    norm_num
  have hu104 : ulpExp q ≤ 104 := by unfold ulpExp; omega
  -- the scaled number is at most 2^24, and at most 2^24 - 1 for the largest unit
  have hscaled : |q| < 2 ^ (24 : Int) * 2 ^ ulpExp q := by
    rw [← zpow_add₀ (by norm_num)]
    exact lt_of_lt_of_le hlt (zpow_le_zpow_right₀ (by norm_num) (by omega))
  have near := fun n => roundHalfEven_nearest (q / 2 ^ ulpExp q) n
  have habs : |q / 2 ^ ulpExp q| < 2 ^ (24 : Int) := by
    rw [abs_div, abs_of_pos hu, div_lt_iff₀ hu]
    exact hscaled
  have hmax : ∀ M : Int, |q / 2 ^ ulpExp q| ≤ M → |roundHalfEven (q / 2 ^ ulpExp q)| ≤ M := by
    intro M hM
    rw [abs_le] at hM
    have h1 := near M
    have h2 := near (-M)
    push_cast at h2
    rw [abs_of_nonneg (by linarith : (0 : Rat) ≤ (M : Rat) - _)] at h1
    rw [abs_of_nonpos (by linarith : -(M : Rat) - _ ≤ 0)] at h2
    have h3 := le_abs_self ((roundHalfEven (q / 2 ^ ulpExp q) : Rat) - q / 2 ^ ulpExp q)
    have h4 := neg_abs_le ((roundHalfEven (q / 2 ^ ulpExp q) : Rat) - q / 2 ^ ulpExp q)
    have a1 : ((roundHalfEven (q / 2 ^ ulpExp q) : Int) : Rat) ≤ M := by linarith
    have a2 : -(M : Rat) ≤ ((roundHalfEven (q / 2 ^ ulpExp q) : Int) : Rat) := by linarith
    rw [abs_le]
    exact ⟨by exact_mod_cast a2, by exact_mod_cast a1⟩
  have hle := hmax (2 ^ 24) (by norm_num at habs ⊢; exact habs.le)
  unfold roundF32
  rw [if_neg h0]
  rcases lt_or_eq_of_le hle with hl | he
  · exact ⟨_, _, hl, hulp.1, hu104, rfl⟩
  · have h103 : ulpExp q ≤ 103 := by
      by_contra hc
      have e : ulpExp q = 104 := by omega
      have := hmax (2 ^ 24 - 1) (by
        rw [abs_div, abs_of_pos hu, div_le_iff₀ hu, e]
        refine hq.trans (le_of_eq ?_)
        unfold f32Max
        norm_num)
      omega
    have hs : roundHalfEven (q / 2 ^ ulpExp q) = 2 ^ 24 ∨ roundHalfEven (q / 2 ^ ulpExp q) = -2 ^ 24 := by
      rcases abs_eq (by norm_num : (0 : Int) ≤ 2 ^ 24) |>.mp he with h | h
      · exact Or.inl h
      · exact Or.inr (by rw [h])
    rcases hs with h | h
    · refine ⟨2 ^ 23, ulpExp q + 1, by norm_num, by omega, by omega, ?_⟩
      rw [h, zpow_add₀ (by norm_num)]
      push_cast
      ring
    · refine ⟨-2 ^ 23, ulpExp q + 1, by norm_num, by omega, by omega, ?_⟩
      rw [h, zpow_add₀ (by norm_num)]
      push_cast
      ring

/-- Ties go to the even neighbour. -/
theorem roundHalfEven_tie (n : Int) : roundHalfEven (n + 1 / 2) % 2 = 0 := by
  have : ((n : Rat) + 1 / 2).floor = n := by
    change ⌊(n : Rat) + 1 / 2⌋ = n
    rw [Int.floor_eq_iff]
    constructor <;> linarith
  unfold roundHalfEven
  simp only [this]
  split_ifs with a b c <;> first | omega | (exfalso; linarith)

/-- A number of the format whose last digit is 0: written with all its 24 digits, or with the smallest exponent if it has
fewer, its integer is even. -/
def Spec.EvenF32 (q : Rat) : Prop :=
  ∃ m e : Int, |m| < 2 ^ 24 ∧ -149 ≤ e ∧ (2 ^ 23 ≤ |m| ∨ e = -149) ∧ q = m * 2 ^ e ∧ 2 ∣ m

/-- If two numbers of the format are nearest, the rounded one is even. -/
theorem roundF32_tie (q r : Rat) (hr : IsF32 r) (hne : r ≠ roundF32 q) (heq : |r - q| = |roundF32 q - q|) : EvenF32 (roundF32 q) := by
  by_cases h0 : q = 0
  · subst h0
    simp [roundF32] at heq hne
    exact absurd heq hne
  have hpos : 0 < |q| := abs_pos.mpr h0
  have hu := two_zpow_pos (ulpExp q)
  have hroundF : roundF32 q = roundHalfEven (q / 2 ^ ulpExp q) * 2 ^ ulpExp q := by unfold roundF32; rw [if_neg h0]
  have hs : ∀ z : Rat, |z * 2 ^ ulpExp q - q| = |z - q / 2 ^ ulpExp q| * 2 ^ ulpExp q := by
    intro z
    rw [show z * 2 ^ ulpExp q - q = (z - q / 2 ^ ulpExp q) * 2 ^ ulpExp q by field_simp, abs_mul, abs_of_pos hu]
  have key : ∀ n : Int, |roundF32 q - q| ≤ |(n : Rat) * 2 ^ ulpExp q - q| := by
    intro n
    rw [hroundF, hs, hs]
    exact mul_le_mul_of_nonneg_right (roundHalfEven_nearest _ n) hu.le
  have hulp : -149 ≤ ulpExp q ∧ (Int.log 2 |q| - 23 = ulpExp q ∨ ulpExp q = -149 ∧ Int.log 2 |q| - 23 ≤ -149) := by unfold ulpExp; omega
  have hbig : (2 : Rat) ^ (Int.log 2 |q|) ≤ |q| := by
    have := Int.zpow_log_le_self (b := 2) (by norm_num) hpos
    exact_mod_cast this
  have hlt : |q| < (2 : Rat) ^ (Int.log 2 |q| + 1) := by
    have := Int.lt_zpow_succ_log_self (b := 2) (by norm_num) |q|
    exact_mod_cast this
  -- the other number is a multiple of the unit
  have hmul : ∃ n : Int, r = n * 2 ^ ulpExp q := by
    obtain ⟨m, e, hm, he, -, rfl⟩ := hr
    by_cases hue : ulpExp q ≤ e
    · obtain ⟨d, hd⟩ := Int.eq_ofNat_of_zero_le (sub_nonneg.mpr hue)
      refine ⟨m * 2 ^ d, ?_⟩
      rw [show e = (d : Int) + ulpExp q by omega, zpow_add₀ (by norm_num)]
      push_cast
      simp [mul_assoc]
    · exfalso
      have hlog : Int.log 2 |q| = 23 + ulpExp q := by omega
      have hp : (2 : Rat) ^ (Int.log 2 |q|) = ((2 ^ 23 : Int) : Rat) * 2 ^ ulpExp q := by
        rw [hlog, zpow_add₀ (by norm_num)]
        norm_num
      have hsmall : |(m : Rat) * 2 ^ e| < (2 : Rat) ^ (Int.log 2 |q|) := by
        rw [abs_mul, abs_of_pos (two_zpow_pos e)]
        have h1 : |(m : Rat)| < 2 ^ (24 : Int) := by
          have : ((|m| : Int) : Rat) < ((2 ^ 24 : Int) : Rat) := by exact_mod_cast hm
          rw [Int.cast_abs] at this
          norm_num at this ⊢
          exact this
        calc |(m : Rat)| * 2 ^ e < 2 ^ (24 : Int) * 2 ^ e := mul_lt_mul_of_pos_right h1 (two_zpow_pos e)
          _ = (2 : Rat) ^ (24 + e) := by rw [zpow_add₀ (by norm_num)]
          _ ≤ _ := zpow_le_zpow_right₀ (by norm_num) (by omega)
      rw [hp] at hbig hsmall
      rcases le_total 0 q with hq | hq
      · have := key (2 ^ 23)
        rw [abs_of_nonneg hq] at hbig
        rw [← heq, abs_of_nonpos (by linarith [le_abs_self ((m : Rat) * 2 ^ e)]), abs_of_nonpos (by linarith)] at this
        linarith [le_abs_self ((m : Rat) * 2 ^ e)]
      · have := key (-2 ^ 23)
        rw [abs_of_nonpos hq] at hbig
        have e1 : ((-2 ^ 23 : Int) : Rat) = -((2 ^ 23 : Int) : Rat) := by push_cast; ring
        rw [e1] at this
        rw [← heq, abs_of_nonneg (by linarith [neg_abs_le ((m : Rat) * 2 ^ e)]), abs_of_nonneg (by linarith)] at this
        linarith [neg_abs_le ((m : Rat) * 2 ^ e)]
  obtain ⟨n, rfl⟩ := hmul
  rw [hroundF] at hne heq
  rw [hs, hs] at heq
  have heq := mul_right_cancel₀ hu.ne' heq
  have hnn : n ≠ roundHalfEven (q / 2 ^ ulpExp q) := by rintro rfl; exact hne rfl
  rw [hroundF]
  have near := roundHalfEven_nearest (q / 2 ^ ulpExp q)
  -- the scaled number lies in the middle between two integers
  have hscaled : |q / 2 ^ ulpExp q| < 2 ^ 24 := by
    rw [abs_div, abs_of_pos hu, div_lt_iff₀ hu]
    refine lt_of_lt_of_le hlt ?_
    rw [show (2 : Rat) ^ 24 = 2 ^ (24 : Int) by norm_num, ← zpow_add₀ (by norm_num)]
    exact zpow_le_zpow_right₀ (by norm_num) (by omega)
  have hlarge : 2 ^ 23 ≤ |q / 2 ^ ulpExp q| ∨ ulpExp q = -149 := by
    rcases hulp.2 with h | h
    · left
      rw [abs_div, abs_of_pos hu, le_div_iff₀ hu]
      refine le_trans (le_of_eq ?_) hbig
      rw [show (2 : Rat) ^ 23 = 2 ^ (23 : Int) by norm_num, ← zpow_add₀ (by norm_num)]
      congr 1; omega
    · exact Or.inr h.1
  have heven : 2 ∣ roundHalfEven (q / 2 ^ ulpExp q) := by
    generalize q / 2 ^ ulpExp q = Q at *
    have hf1 : ((Q.floor : Int) : Rat) ≤ Q := Rat.floor_le Q
    have hf2 : Q < ((Q.floor : Int) : Rat) + 1 := by
      have := Rat.lt_floor_add_one Q
      push_cast at this
      exact this
    have hhalf : Q = (Q.floor : Rat) + 1 / 2 := by
      have n1 := near Q.floor
      have n2 := near (Q.floor + 1)
      push_cast at n2
      rw [abs_of_nonpos (by linarith : (Q.floor : Rat) - Q ≤ 0)] at n1
      rw [abs_of_nonneg (by linarith : (0 : Rat) ≤ (Q.floor : Rat) + 1 - Q)] at n2
      have hsum : (n : Rat) + roundHalfEven Q = 2 * Q := by
        rcases abs_eq_abs.mp heq with h | h
        · exfalso; apply hnn
          have : (n : Rat) = roundHalfEven Q := by linarith
          exact_mod_cast this
        · linarith
      have hz : (n + roundHalfEven Q - 2 * Q.floor : Int) = 1 ∨ (n + roundHalfEven Q - 2 * Q.floor : Int) = 0 := by
        have a : ((n + roundHalfEven Q - 2 * Q.floor : Int) : Rat) = 2 * (Q - Q.floor) := by push_cast; linarith
        have b1 : (0 : Rat) ≤ ((n + roundHalfEven Q - 2 * Q.floor : Int) : Rat) := by rw [a]; linarith
        have b2 : ((n + roundHalfEven Q - 2 * Q.floor : Int) : Rat) < 2 := by rw [a]; linarith
        have b1' : (0 : Int) ≤ n + roundHalfEven Q - 2 * Q.floor := by exact_mod_cast b1
        have b2' : n + roundHalfEven Q - 2 * Q.floor < 2 := by exact_mod_cast b2
        omega
      rcases hz with hz | hz
      · have : (n : Rat) + roundHalfEven Q = 2 * Q.floor + 1 := by
          have : n + roundHalfEven Q = 2 * Q.floor + 1 := by omega
          exact_mod_cast this
        linarith
      · exfalso
        have hq : Q = Q.floor := by
          have : (n : Rat) + roundHalfEven Q = 2 * Q.floor := by
            have : n + roundHalfEven Q = 2 * Q.floor := by omega
            exact_mod_cast this
          linarith
        have hz0 : |(roundHalfEven Q : Rat) - Q| ≤ 0 := by linarith
        have e1 : (roundHalfEven Q : Rat) = Q := by have := abs_nonpos_iff.mp hz0; linarith
        apply hnn
        have : (n : Rat) = roundHalfEven Q := by linarith
        exact_mod_cast this
    have := roundHalfEven_tie Q.floor
    rw [← hhalf] at this
    omega
  have hub : |roundHalfEven (q / 2 ^ ulpExp q)| ≤ 2 ^ 24 ∧ (2 ^ 23 ≤ |roundHalfEven (q / 2 ^ ulpExp q)| ∨ ulpExp q = -149) := by
    generalize q / 2 ^ ulpExp q = Q at *
    constructor
    · rw [abs_lt] at hscaled
      have h1 := near (2 ^ 24)
      have h2 := near (-2 ^ 24)
      push_cast at h1 h2
      rw [abs_of_nonneg (by linarith : (0 : Rat) ≤ 16777216 - Q)] at h1
      rw [abs_of_nonpos (by linarith : -(16777216 : Rat) - Q ≤ 0)] at h2
      have a1 : ((roundHalfEven Q : Int) : Rat) ≤ 2 ^ 24 := by linarith [le_abs_self ((roundHalfEven Q : Rat) - Q)]
      have a2 : -(2 : Rat) ^ 24 ≤ ((roundHalfEven Q : Int) : Rat) := by linarith [neg_abs_le ((roundHalfEven Q : Rat) - Q)]
      rw [abs_le]
      exact ⟨by exact_mod_cast a2, by exact_mod_cast a1⟩
    · refine hlarge.imp_left ?_
      intro hl
      rcases le_total 0 Q with hq | hq
      · rw [abs_of_nonneg hq] at hl
        have h1 := near (2 ^ 23)
        push_cast at h1
        rw [abs_of_nonpos (by linarith : (8388608 : Rat) - Q ≤ 0)] at h1
        have a1 : (2 : Rat) ^ 23 ≤ ((roundHalfEven Q : Int) : Rat) := by linarith [neg_abs_le ((roundHalfEven Q : Rat) - Q)]
        have : (2 : Int) ^ 23 ≤ roundHalfEven Q := by exact_mod_cast a1
        exact this.trans (le_abs_self _)
      · rw [abs_of_nonpos hq] at hl
        have h1 := near (-2 ^ 23)
        push_cast at h1
        rw [abs_of_nonneg (by linarith : (0 : Rat) ≤ -8388608 - Q)] at h1
        have a1 : ((roundHalfEven Q : Int) : Rat) ≤ -(2 : Rat) ^ 23 := by linarith [le_abs_self ((roundHalfEven Q : Rat) - Q)]
        have : roundHalfEven Q ≤ -(2 : Int) ^ 23 := by exact_mod_cast a1
        exact (by omega : (2 : Int) ^ 23 ≤ -roundHalfEven Q).trans (neg_le_abs _)
  generalize roundHalfEven (q / 2 ^ ulpExp q) = k at *
  rcases lt_or_eq_of_le hub.1 with hl | he
  · exact ⟨k, ulpExp q, hl, hulp.1, hub.2, rfl, heven⟩
  · rcases abs_eq (by norm_num : (0 : Int) ≤ 2 ^ 24) |>.mp he with h | h
    · refine ⟨2 ^ 23, ulpExp q + 1, by norm_num, by omega, Or.inl (by norm_num), ?_, by norm_num⟩
      rw [h, zpow_add₀ (by norm_num)]
      push_cast
      ring
    · refine ⟨-2 ^ 23, ulpExp q + 1, by norm_num, by omega, Or.inl (by norm_num), ?_, by norm_num⟩
      rw [h, zpow_add₀ (by norm_num)]
      push_cast
      ring

/-! ## The two instances -/

theorem placeNodesR_id (doc : Document) : placeNodesR id doc = placeNodes doc := rfl

theorem placeTerminalPortsR_id (doc : Document) : placeTerminalPortsR id doc = placeTerminalPorts doc := rfl

/-! ## Exactness -/

/-- Half integers below 2^23 are in the format. -/
theorem isF32_half (n : Int) (h : |n| < 2 ^ 24) : IsF32 ((n : Rat) / 2) :=
  ⟨n, -1, h, by norm_num, by norm_num, by rw [zpow_neg_one]; rfl⟩

/-- Natural numbers below 2^23 are in the format. -/
theorem isF32_nat (n : Nat) (h : n < 2 ^ 23) : IsF32 (n : Rat) := by
  have := isF32_half (2 * n) (by rw [abs_of_nonneg (by omega)]; omega)
  push_cast at this
  rwa [mul_div_cancel_left₀ _ (by norm_num : (2 : Rat) ≠ 0)] at this

section
variable {rnd : Rat → Rat} (hrnd : ∀ q, IsF32 q → rnd q = q)
include hrnd

theorem rnd_nat {q : Rat} (n : Nat) (h : n < 2 ^ 23) (e : q = n) : rnd q = q := by
  rw [e]; exact hrnd _ (isF32_nat n h)

theorem placeFieldsR_eq (x : Rat) (b : Nat) (doc : Document) (fields : List (NodeId × Nat))
    (h : ∀ p ∈ fields, b + 35 * p.2 < 2 ^ 23) :
    placeFieldsR rnd x b doc fields = placeFields x b doc fields := by
  unfold placeFieldsR placeFields
  induction fields generalizing doc with
  | nil => rfl
  | cons f fs ih =>
    obtain ⟨f, j⟩ := f
    have hj := h (f, j) (by simp)
    simp only at hj
    have e1 : rnd (j : Rat) = j := rnd_nat hrnd j (by omega) rfl
    have e2 : rnd (LINE_HEIGHT * j) = LINE_HEIGHT * j :=
      rnd_nat hrnd (35 * j) (by omega) (by unfold LINE_HEIGHT; push_cast; rfl)
    have e3 : rnd ((b : Rat) + LINE_HEIGHT * j) = b + LINE_HEIGHT * j :=
      rnd_nat hrnd (b + 35 * j) hj (by unfold LINE_HEIGHT; push_cast; rfl)
    rw [List.foldl_cons, List.foldl_cons]
    simp only [e1, e2, e3]
    exact ih _ (fun p hp => h p (by simp [hp]))

/-- One table, if the numbers involved are small. -/
theorem placeRecordR_eq (st : PlaceState) (t : NodeId) (k b : Nat)
    (h1 : k > 0 ∧ k % GRID_N_COLUMNS = 0 →
      rnd (st.maxHeight + RECORD_SPACE) = st.maxHeight + RECORD_SPACE ∧
      rnd (st.baseY + (st.maxHeight + RECORD_SPACE)) = st.baseY + (st.maxHeight + RECORD_SPACE))
    (hb : (if k > 0 ∧ k % GRID_N_COLUMNS = 0 then st.baseY + (st.maxHeight + RECORD_SPACE) else st.baseY) = b)
    (h2 : ∀ n, st.doc.getNode t = some n → b + 35 * n.children.length < 2 ^ 23) :
    placeRecordR rnd st (t, k) = placeRecord st (t, k) := by
  unfold placeRecordR placeRecord
  simp only
  have hst : (if k > 0 ∧ k % GRID_N_COLUMNS = 0 then
      ({ st with baseY := rnd (st.baseY + rnd (st.maxHeight + RECORD_SPACE)), maxHeight := f32Min } : PlaceState)
      else st) = (if k > 0 ∧ k % GRID_N_COLUMNS = 0 then
      ({ st with baseY := st.baseY + (st.maxHeight + RECORD_SPACE), maxHeight := f32Min } : PlaceState) else st) := by
    split
    · rename_i hc
      rw [(h1 hc).1, (h1 hc).2]
    · rfl
  rw [hst]
  generalize hst' : (if k > 0 ∧ k % GRID_N_COLUMNS = 0 then
      ({ st with baseY := st.baseY + (st.maxHeight + RECORD_SPACE), maxHeight := f32Min } : PlaceState) else st) = st'
  have hd : st'.doc = st.doc := by rw [← hst']; split <;> rfl
  have hb' : st'.baseY = b := by rw [← hst', ← hb]; split <;> rfl
  rw [hd, hb']
  cases hn : st.doc.getNode t with
  | none => rfl
  | some n =>
    simp only
    cases hk : n.kind with
    | body => rfl
    | field f => rfl
    | record r =>
      have hlen := h2 n hn
      have h3 : k % GRID_N_COLUMNS < 3 := Nat.mod_lt _ (by decide)
      have e1 : rnd (n.children.length : Rat) = n.children.length := rnd_nat hrnd _ (by omega) rfl
      have e2 : rnd (LINE_HEIGHT * (n.children.length : Rat)) = LINE_HEIGHT * (n.children.length : Rat) :=
        rnd_nat hrnd (35 * n.children.length) (by omega) (by unfold LINE_HEIGHT; push_cast; rfl)
      have e3 : rnd (RECORD_WIDTH + RECORD_SPACE) = RECORD_WIDTH + RECORD_SPACE :=
        rnd_nat hrnd 380 (by norm_num) (by unfold RECORD_WIDTH RECORD_SPACE; norm_num)
      have e4 : rnd ((k % GRID_N_COLUMNS : Nat) : Rat) = ((k % GRID_N_COLUMNS : Nat) : Rat) :=
        rnd_nat hrnd _ (by omega) rfl
      have e5 : rnd ((RECORD_WIDTH + RECORD_SPACE) * ((k % GRID_N_COLUMNS : Nat) : Rat)) =
          (RECORD_WIDTH + RECORD_SPACE) * ((k % GRID_N_COLUMNS : Nat) : Rat) :=
        rnd_nat hrnd (380 * (k % GRID_N_COLUMNS)) (by omega) (by unfold RECORD_WIDTH RECORD_SPACE; push_cast; norm_num)
      have e6 : rnd (ORIGIN.x + (RECORD_WIDTH + RECORD_SPACE) * ((k % GRID_N_COLUMNS : Nat) : Rat)) =
          ORIGIN.x + (RECORD_WIDTH + RECORD_SPACE) * ((k % GRID_N_COLUMNS : Nat) : Rat) :=
        rnd_nat hrnd (50 + 380 * (k % GRID_N_COLUMNS)) (by omega)
          (by unfold RECORD_WIDTH RECORD_SPACE ORIGIN; push_cast; norm_num)
      simp only [e1, e2, e3, e4, e5, e6]
      rw [placeFieldsR_eq hrnd]
      rintro ⟨f, j⟩ hp
      have := List.mem_zipIdx_iff_getElem?.mp hp
      have := (List.getElem?_eq_some_iff.mp this).1
      simp only at this ⊢
      omega

/-- A rectangle with integer coordinates below 2^23. -/
def SmallRect (r : Rect) : Prop :=
  ∃ x y w h : Nat, r = ⟨⟨x, y⟩, ⟨w, h⟩⟩ ∧ x + w < 2 ^ 22 ∧ y + h ≤ 2 ^ 22

omit hrnd in
theorem isF32_mid (a b : Nat) (h : a + b ≤ 2 ^ 22) : IsF32 ((b : Rat) / 2) ∧ IsF32 ((a : Rat) + b / 2) ∧ IsF32 ((a : Rat) + b) := by
  refine ⟨?_, ?_, ?_⟩
  · have := isF32_half b (by rw [abs_of_nonneg (by omega)]; omega)
    rwa [Int.cast_natCast] at this
  · have := isF32_half (2 * a + b) (by rw [abs_of_nonneg (by omega)]; omega)
    push_cast at this
    rwa [show (2 * (a : Rat) + b) / 2 = a + b / 2 by ring] at this
  · have := isF32_nat (a + b) (by omega)
    push_cast at this
    exact this

theorem fourPortsR_eq (r : Rect) (h : SmallRect r) : fourPortsR rnd r = fourPorts r := by
  obtain ⟨x, y, w, h, rfl, hx, hy⟩ := h
  obtain ⟨a1, a2, a3⟩ := isF32_mid x w hx.le
  obtain ⟨b1, b2, b3⟩ := isF32_mid y h hy
  simp only [fourPortsR, fourPorts, Rect.midXR, Rect.maxXR, Rect.midYR, Rect.maxYR, Rect.midX, Rect.maxX, Rect.midY,
    Rect.maxY, hrnd _ a1, hrnd _ a2, hrnd _ a3, hrnd _ b1, hrnd _ b2, hrnd _ b3]

theorem fieldPortsR_eq (i c : Nat) (r : Rect) (h : SmallRect r) : fieldPortsR rnd i c r = fieldPorts i c r := by
  unfold fieldPortsR fieldPorts
  rw [fourPortsR_eq hrnd r h]
  obtain ⟨x, y, w, h, rfl, hx, hy⟩ := h
  obtain ⟨a1, a2, a3⟩ := isF32_mid x w hx.le
  obtain ⟨b1, b2, b3⟩ := isF32_mid y h hy
  simp only [Rect.midXR, Rect.maxXR, Rect.midYR, Rect.maxYR, Rect.midX, Rect.maxX, Rect.midY,
    Rect.maxY, hrnd _ a1, hrnd _ a2, hrnd _ a3, hrnd _ b1, hrnd _ b2, hrnd _ b3]

theorem placeFieldPortsR_eq (doc : Document) (count : Nat) (fields : List (NodeId × Nat))
    (us : List (NodeId × List (Rat × Rat × Orientation)))
    (h : ∀ p ∈ fields, ∀ r, rectOf doc p.1 = some r → SmallRect r) :
    placeFieldPortsR rnd count (addPortsAll doc us) fields = placeFieldPorts count (addPortsAll doc us) fields := by
  induction fields generalizing us with
  | nil => rfl
  | cons f fs ih =>
    have e1 : placeFieldPortsR rnd count (addPortsAll doc us) (f :: fs) = placeFieldPortsR rnd count
        (placeFieldPortsR rnd count (addPortsAll doc us) [f]) fs := rfl
    have e2 : placeFieldPorts count (addPortsAll doc us) (f :: fs) = placeFieldPorts count
        (placeFieldPorts count (addPortsAll doc us) [f]) fs := rfl
    have e3 : placeFieldPortsR rnd count (addPortsAll doc us) [f] = placeFieldPorts count (addPortsAll doc us) [f] := by
      unfold placeFieldPortsR placeFieldPorts
      simp only [List.foldl_cons, List.foldl_nil, Document.getNode, (addPortsAll_getElem doc us f.1).1]
      cases hn : doc.nodes[f.1]? with
      | none => rfl
      | some n =>
        simp only [Option.map_some, addPorts_rect]
        cases hr : n.rect with
        | none => rfl
        | some r =>
          simp only
          rw [fieldPortsR_eq hrnd _ _ r (h f (by simp) r (by
            rw [rectOf_eq, Document.getNode, hn]; exact hr))]
    rw [e1, e2, e3, placeFieldPorts_eq]
    exact ih _ (fun p hp => h p (by simp [hp]))

theorem placeRecordPortsR_eq (doc : Document) (t : NodeId) (us : List (NodeId × List (Rat × Rat × Orientation)))
    (h1 : ∀ r, rectOf doc t = some r → SmallRect r)
    (h2 : ∀ l ∈ childrenOf doc t, ∀ r, rectOf doc l = some r → SmallRect r) :
    placeRecordPortsR rnd (addPortsAll doc us) t = placeRecordPorts (addPortsAll doc us) t := by
  unfold placeRecordPortsR placeRecordPorts
  simp only [Document.getNode, (addPortsAll_getElem doc us t).1]
  cases hn : doc.nodes[t]? with
  | none => rfl
  | some n =>
    simp only [Option.map_some, addPorts_rect, addPorts_children]
    cases hr : n.rect with
    | none => rfl
    | some r =>
      simp only
      rw [fourPortsR_eq hrnd r (h1 r (by rw [rectOf_eq, Document.getNode, hn]; exact hr))]
      have e2 : (addPortsAll doc us).modifyNode t (addPorts t (fourPorts r)) =
          addPortsAll doc (us ++ [(t, fourPorts r)]) := by rw [addPortsAll_append]; rfl
      rw [e2]
      apply placeFieldPortsR_eq hrnd
      intro p hp
      have := List.mem_of_getElem? (List.mem_zipIdx_iff_getElem?.mp hp)
      exact h2 p.1 (by simp [childrenOf, hn, this])

theorem placeTerminalPortsR_eq (doc : Document)
    (h1 : ∀ t ∈ tables doc, ∀ r, rectOf doc t = some r → SmallRect r)
    (h2 : ∀ t ∈ tables doc, ∀ l ∈ childrenOf doc t, ∀ r, rectOf doc l = some r → SmallRect r) :
    placeTerminalPortsR rnd doc = placeTerminalPorts doc := by
  have key : ∀ (l : List NodeId) (us : List (NodeId × List (Rat × Rat × Orientation))), (∀ t ∈ l, t ∈ tables doc) →
      l.foldl (placeRecordPortsR rnd) (addPortsAll doc us) = l.foldl placeRecordPorts (addPortsAll doc us) := by
    intro l
    induction l with
    | nil => intro us _; rfl
    | cons t l ih =>
      intro us ht
      rw [List.foldl_cons, List.foldl_cons, placeRecordPortsR_eq hrnd doc t us (h1 t (ht t (by simp)))
        (h2 t (ht t (by simp))), placeRecordPorts_eq]
      exact ih _ (fun t' h' => ht t' (by simp [h']))
  exact key _ [] (fun t h => h)

omit hrnd in
/-- Row tops are integers. -/
theorem rowTop_nat (ns : List Nat) (r : Nat) : ∃ b : Nat, rowTop ns r = b := by
  induction r with
  | zero => exact ⟨50, by norm_num [rowTop]⟩
  | succ r ih =>
    obtain ⟨b, hb⟩ := ih
    exact ⟨b + 35 * tallest ns r + 80, by rw [rowTop, hb]; push_cast; ring⟩

/-- Placement is exact if every table ends above 2^22. -/
theorem placeNodesR_eq {doc : Document} (hd : Tabular doc) (hne : tables doc ≠ [])
    (hh : ∀ r, r ≤ ((tables doc).length - 1) / 3 → rowTop (lineCounts doc) r + 35 * (tallest (lineCounts doc) r : Rat) ≤ 2 ^ 22) :
    placeNodesR rnd doc = placeNodes doc := by
  -- every table ends above 2^22
  have hrow : ∀ r, r ≤ ((tables doc).length - 1) / 3 → ∃ b : Nat, rowTop (lineCounts doc) r = b ∧
      b + 35 * tallest (lineCounts doc) r ≤ 2 ^ 22 := by
    intro r hr
    obtain ⟨b, hb⟩ := rowTop_nat (lineCounts doc) r
    have := hh r hr
    rw [hb] at this
    exact ⟨b, hb, by exact_mod_cast this⟩
  have htab : ∀ (k : Nat) t, (tables doc)[k]? = some t → (childrenOf doc t).length ≤ tallest (lineCounts doc) (k / 3) := by
    intro k t ht
    have hns : (lineCounts doc)[k]? = some (childrenOf doc t).length := by simp [lineCounts, ht]
    obtain ⟨r, hr⟩ : ∃ r, k = 3 * r ∨ k = 3 * r + 1 ∨ k = 3 * r + 2 := ⟨k / 3, by omega⟩
    unfold tallest
    rcases hr with rfl | rfl | rfl
    · rw [show 3 * r / 3 = r by omega, hns]; simp
    · rw [show (3 * r + 1) / 3 = r by omega, hns]; simp
    · rw [show (3 * r + 2) / 3 = r by omega, hns]; simp
  have key : ∀ (suf : List NodeId) (k : Nat) (st : AssignState), (tables doc).drop k = suf → Expected doc k st →
      (suf.zipIdx k).foldl (placeRecordR rnd) ⟨setRects doc st.us, st.baseY, st.maxHeight⟩ =
        (suf.zipIdx k).foldl placeRecord ⟨setRects doc st.us, st.baseY, st.maxHeight⟩ := by
    intro suf
    induction suf with
    | nil => intro k st _ h; rfl
    | cons t suf ih =>
      intro k st hdrop h
      have ht : (tables doc)[k]? = some t := by
        have := congrArg (·[0]?) hdrop
        simpa [List.getElem?_drop] using this
      have hdrop' : (tables doc).drop (k + 1) = suf := by
        rw [← List.drop_drop, hdrop]; rfl
      have hk : k < (tables doc).length := (List.getElem?_eq_some_iff.mp ht).1
      have hE := h
      obtain ⟨-, h0, hpos⟩ := hE
      obtain ⟨b, hb, hbt⟩ := hrow (k / 3) (by omega)
      have hbase : (if k > 0 ∧ k % GRID_N_COLUMNS = 0 then st.baseY + (st.maxHeight + RECORD_SPACE) else st.baseY) = b := by
        rw [← hb]
        split
        · rename_i hc
          obtain ⟨hc1, hc2⟩ := hc
          have hc2 : k % 3 = 0 := hc2
          obtain ⟨e1, e2⟩ := hpos hc1
          rw [e1, e2, show k / 3 = (k - 1) / 3 + 1 by omega, rowTop, tallest_take _ _ _ (by omega)]
          unfold RECORD_SPACE
          ring
        · rename_i hc
          by_cases hk0 : k = 0
          · rw [(h0 hk0).1, hk0]; rfl
          · have hc2 : ¬ k % 3 = 0 := fun hh => hc ⟨Nat.pos_of_ne_zero hk0, hh⟩
            rw [(hpos (Nat.pos_of_ne_zero hk0)).1, show (k - 1) / 3 = k / 3 by omega]
      have step : placeRecordR rnd ⟨setRects doc st.us, st.baseY, st.maxHeight⟩ (t, k) =
          placeRecord ⟨setRects doc st.us, st.baseY, st.maxHeight⟩ (t, k) := by
        apply placeRecordR_eq hrnd _ t k b _ hbase
        · intro n hn
          rw [Document.getNode, (setRects_getElem doc st.us t).1, Option.map_eq_some_iff] at hn
          obtain ⟨n', hn', rfl⟩ := hn
          rw [applyRect_children]
          have := htab k t ht
          rw [show childrenOf doc t = n'.children by simp [childrenOf, hn']] at this
          omega
        · intro hc
          simp only
          rw [if_pos hc] at hbase
          refine ⟨?_, ?_⟩
          · obtain ⟨e1, e2⟩ := hpos hc.1
            have hc2 : k % 3 = 0 := hc.2
            rw [e2, tallest_take _ _ _ (by omega)]
            obtain ⟨b', -, hb'⟩ := hrow ((k - 1) / 3) (by omega)
            apply rnd_nat hrnd (35 * tallest (lineCounts doc) ((k - 1) / 3) + 80) (by omega)
            unfold RECORD_SPACE
            push_cast
            rfl
          · rw [hbase]
            exact rnd_nat hrnd b (by omega) rfl
      rw [List.zipIdx_cons, List.foldl_cons, List.foldl_cons, step, placeRecord_eq]
      exact ih (k + 1) _ hdrop' (h.step hd t ht)
  have hfold := key (tables doc) 0 ⟨[], ORIGIN.y, f32Min⟩ rfl ⟨by simp, fun _ => ⟨rfl, rfl⟩, fun h => absurd h (lt_irrefl _)⟩
  have hstate : (tables doc).zipIdx.foldl placeRecord ⟨doc, ORIGIN.y, f32Min⟩ =
      ⟨setRects doc (assignments doc).us, (assignments doc).baseY, (assignments doc).maxHeight⟩ := by
    have key2 : ∀ (l : List (NodeId × Nat)) (st : AssignState),
        l.foldl placeRecord ⟨setRects doc st.us, st.baseY, st.maxHeight⟩ =
          ⟨setRects doc (l.foldl (assignStep doc) st).us, (l.foldl (assignStep doc) st).baseY,
            (l.foldl (assignStep doc) st).maxHeight⟩ := by
      intro l
      induction l with
      | nil => intro st; rfl
      | cons c l ih => intro st; simp only [List.foldl_cons]; rw [placeRecord_eq, ih]
    exact key2 (tables doc).zipIdx ⟨[], ORIGIN.y, f32Min⟩
  have hexp := (assignments_expected hd).2.2 (List.length_pos_iff.mpr hne)
  rw [List.take_of_length_le (by simp [lineCounts])] at hexp
  obtain ⟨b, hb, hbt⟩ := hrow (((tables doc).length - 1) / 3) le_rfl
  unfold placeNodesR placeNodes
  rw [bodyChildren_eq]
  have hfold' : (tables doc).zipIdx.foldl (placeRecordR rnd) ⟨doc, ORIGIN.y, f32Min⟩ =
      (tables doc).zipIdx.foldl placeRecord ⟨doc, ORIGIN.y, f32Min⟩ := hfold
  simp only [hfold', hstate]
  have e1 : rnd (ORIGIN.x * 2) = ORIGIN.x * 2 := rnd_nat hrnd 100 (by norm_num) (by unfold ORIGIN; norm_num)
  have e2 : rnd (GRID_N_COLUMNS : Rat) = (GRID_N_COLUMNS : Rat) := rnd_nat hrnd 3 (by norm_num) rfl
  have e3 : rnd ((GRID_N_COLUMNS : Rat) * RECORD_WIDTH) = (GRID_N_COLUMNS : Rat) * RECORD_WIDTH :=
    rnd_nat hrnd 900 (by norm_num) (by unfold GRID_N_COLUMNS RECORD_WIDTH; norm_num)
  have e4 : rnd ((GRID_N_COLUMNS - 1 : Nat) : Rat) = ((GRID_N_COLUMNS - 1 : Nat) : Rat) :=
    rnd_nat hrnd 2 (by norm_num) rfl
  have e5 : rnd (((GRID_N_COLUMNS - 1 : Nat) : Rat) * RECORD_SPACE) = ((GRID_N_COLUMNS - 1 : Nat) : Rat) * RECORD_SPACE :=
    rnd_nat hrnd 160 (by norm_num) (by unfold GRID_N_COLUMNS RECORD_SPACE; norm_num)
  have e6 : rnd (ORIGIN.x * 2 + (GRID_N_COLUMNS : Rat) * RECORD_WIDTH) = ORIGIN.x * 2 + (GRID_N_COLUMNS : Rat) * RECORD_WIDTH :=
    rnd_nat hrnd 1000 (by norm_num) (by unfold GRID_N_COLUMNS RECORD_WIDTH ORIGIN; norm_num)
  have e7 : rnd (ORIGIN.x * 2 + (GRID_N_COLUMNS : Rat) * RECORD_WIDTH + ((GRID_N_COLUMNS - 1 : Nat) : Rat) * RECORD_SPACE) =
      ORIGIN.x * 2 + (GRID_N_COLUMNS : Rat) * RECORD_WIDTH + ((GRID_N_COLUMNS - 1 : Nat) : Rat) * RECORD_SPACE :=
    rnd_nat hrnd 1160 (by norm_num) (by unfold GRID_N_COLUMNS RECORD_WIDTH ORIGIN RECORD_SPACE; norm_num)
  have e8 : rnd ((assignments doc).baseY + (assignments doc).maxHeight) = (assignments doc).baseY + (assignments doc).maxHeight := by
    rw [hexp.1, hexp.2, hb]
    exact rnd_nat hrnd (b + 35 * tallest (lineCounts doc) (((tables doc).length - 1) / 3)) (by omega) (by push_cast; rfl)
  have e9 : rnd ((assignments doc).baseY + (assignments doc).maxHeight + ORIGIN.y) =
      (assignments doc).baseY + (assignments doc).maxHeight + ORIGIN.y := by
    rw [hexp.1, hexp.2, hb]
    exact rnd_nat hrnd (b + 35 * tallest (lineCounts doc) (((tables doc).length - 1) / 3) + 50) (by omega)
      (by unfold ORIGIN; push_cast; rfl)
  simp only [e1, e2, e3, e4, e5, e6, e7, e8, e9]

end

/-! ## C55 -/

/-- The height of the diagram: the bottom of the last row plus the margin. -/
def Spec.diagramHeight (doc : Document) : Rat :=
  let r := ((tables doc).length - 1) / 3
  rowTop (lineCounts doc) r + 35 * (tallest (lineCounts doc) r : Rat) + 50

/-- Placement with any rounding that keeps the numbers of the format. -/
theorem placed_exact {rnd : Rat → Rat} (hrnd : ∀ q, IsF32 q → rnd q = q) (m : Module) (hne : tables m.intoMir ≠ [])
    (hh : diagramHeight m.intoMir ≤ 2 ^ 22) :
    placeNodesR rnd m.intoMir = placeNodes m.intoMir ∧
    placeTerminalPortsR rnd (placeNodesR rnd m.intoMir).1 = placeTerminalPorts (placeNodes m.intoMir).1 := by
  have hd := tabular_intoMir m
  generalize m.intoMir = doc at *
  have hmono : ∀ (r d : Nat), rowTop (lineCounts doc) r + 35 * (tallest (lineCounts doc) r : Rat) ≤
      rowTop (lineCounts doc) (r + d) + 35 * (tallest (lineCounts doc) (r + d) : Rat) := by
    intro r d
    induction d with
    | zero => exact le_rfl
    | succ d ih =>
      refine ih.trans ?_
      rw [← Nat.add_assoc, rowTop]
      have : (0 : Rat) ≤ tallest (lineCounts doc) (r + d + 1) := Nat.cast_nonneg _
      linarith
  have hrows : ∀ r, r ≤ ((tables doc).length - 1) / 3 →
      rowTop (lineCounts doc) r + 35 * (tallest (lineCounts doc) r : Rat) ≤ 2 ^ 22 := by
    intro r hr
    have := hmono r (((tables doc).length - 1) / 3 - r)
    rw [Nat.add_sub_cancel' hr] at this
    unfold diagramHeight at hh
    simp only at hh
    linarith
  have h1 := placeNodesR_eq hrnd hd hne hrows
  refine ⟨h1, ?_⟩
  rw [h1]
  have htab : ∀ (k : Nat) t, (tables doc)[k]? = some t → ∃ b : Nat, rowTop (lineCounts doc) (k / 3) = b ∧
      b + 35 * (childrenOf doc t).length ≤ 2 ^ 22 := by
    intro k t ht
    have hk : k < (tables doc).length := (List.getElem?_eq_some_iff.mp ht).1
    obtain ⟨b, hb⟩ := rowTop_nat (lineCounts doc) (k / 3)
    have hr := hrows (k / 3) (by omega)
    rw [hb] at hr
    have hr' : b + 35 * tallest (lineCounts doc) (k / 3) ≤ 2 ^ 22 := by exact_mod_cast hr
    have hns : (lineCounts doc)[k]? = some (childrenOf doc t).length := by simp [lineCounts, ht]
    have hle : (childrenOf doc t).length ≤ tallest (lineCounts doc) (k / 3) := by
      obtain ⟨r, hr⟩ : ∃ r, k = 3 * r ∨ k = 3 * r + 1 ∨ k = 3 * r + 2 := ⟨k / 3, by omega⟩
      unfold tallest
      rcases hr with rfl | rfl | rfl
      · rw [show 3 * r / 3 = r by omega, hns]; simp
      · rw [show (3 * r + 1) / 3 = r by omega, hns]; simp
      · rw [show (3 * r + 2) / 3 = r by omega, hns]; simp
    exact ⟨b, hb, by omega⟩
  apply placeTerminalPortsR_eq hrnd
  · intro t ht r hr
    rw [tables_placed] at ht
    obtain ⟨k, hk⟩ := List.getElem?_of_mem ht
    rw [rectOf_table hd k t hk, Option.some.injEq] at hr
    obtain ⟨b, hb, hbt⟩ := htab k t hk
    subst hr
    refine ⟨50 + 380 * (k % 3), b, 300, 35 * (childrenOf doc t).length, ?_, by omega, hbt⟩
    simp [tableRect, hb]
  · intro t ht l hl r hr
    rw [tables_placed] at ht
    rw [childrenOf_placed] at hl
    obtain ⟨k, hk⟩ := List.getElem?_of_mem ht
    obtain ⟨j, hj⟩ := List.getElem?_of_mem hl
    have hjl : j < (childrenOf doc t).length := (List.getElem?_eq_some_iff.mp hj).1
    rw [rectOf_line hd k j t l hk hj, Option.some.injEq] at hr
    obtain ⟨b, hb, hbt⟩ := htab k t hk
    subst hr
    refine ⟨50 + 380 * (k % 3), b + 35 * j, 300, 35, ?_, by omega, by omega⟩
    simp [lineRect, hb]

/-- **C55** for modules with at least one table (missing: the module without tables, for which the claim is false, see
`C55_refuted`).  For every module with at least one table whose diagram is at most 2^22 units high, placing the nodes and
the terminal ports in 32-bit floating point, with every operation rounded, gives the exact results of the model. -/
theorem C55_f32_exact_partial (m : Module) (hne : tables m.intoMir ≠ []) (hh : diagramHeight m.intoMir ≤ 2 ^ 22) :
    placeNodesR roundF32 m.intoMir = placeNodes m.intoMir ∧
    placeTerminalPortsR roundF32 (placeNodesR roundF32 m.intoMir).1 = placeTerminalPorts (placeNodes m.intoMir).1 :=
  placed_exact roundF32_exact m hne hh

/-- The rounding is the one of IEEE 754: numbers of the format are kept, the result is in the format, no number of the
format is nearer, and if another one is as near then the last digit of the result is 0. -/
theorem C55_rounding (q : Rat) (hq : |q| ≤ f32Max) :
    IsF32 (roundF32 q) ∧ (IsF32 q → roundF32 q = q) ∧ (∀ r, IsF32 r → |roundF32 q - q| ≤ |r - q|) ∧
    ∀ r, IsF32 r → r ≠ roundF32 q → |r - q| = |roundF32 q - q| → EvenF32 (roundF32 q) :=
  ⟨roundF32_isF32 q hq, roundF32_exact q, roundF32_nearest q, roundF32_tie q⟩

/-! A module meeting the hypotheses of `C55_f32_exact_partial`. -/
set_option maxRecDepth 100000 in
example :
    let m : Module := ⟨none, [.definition ⟨c!"a", [⟨c!"id", .int, none⟩]⟩, .definition ⟨c!"b", []⟩]⟩
    tables m.intoMir ≠ [] ∧ diagramHeight m.intoMir ≤ 2 ^ 22 := by
  decide +kernel

/-! The rounding function does round: 2^24 + 1 is not in the format, and the tie goes to the even neighbour, as does the
one at 2^24 + 3; 1/3 is rounded to 11184811 / 2^25; the smallest subnormal number is kept. -/
set_option maxRecDepth 100000 in
example : roundF32 16777217 = 16777216 ∧ roundF32 16777219 = 16777220 ∧ roundF32 (1 / 3) = 11184811 / 2 ^ 25 ∧
    roundF32 (-1 / 3) = -11184811 / 2 ^ 25 ∧ roundF32 (1 / 2 ^ 149) = 1 / 2 ^ 149 ∧ roundF32 (1 / 2 ^ 150) = 0 := by
  decide +kernel

/-! A tie: 2^24 + 2 is as near to 2^24 + 1 as the rounded number. -/
set_option maxRecDepth 100000 in
example : IsF32 16777218 ∧ (16777218 : Rat) ≠ roundF32 16777217 ∧ |(16777218 : Rat) - 16777217| = |roundF32 16777217 - 16777217| :=
  ⟨⟨8388609, 1, by norm_num, by norm_num, by norm_num, by norm_num⟩, by decide +kernel, by
    rw [show roundF32 16777217 = 16777216 by decide +kernel]; norm_num⟩

/-- C55 is false for every module without tables: the height of the view box is computed as `50 + f32::MIN + 50`, which
is not in the format and is rounded to `f32::MIN`. -/
theorem C55_refuted (m : Module) (h : definitions m.entries = []) :
    (placeNodesR roundF32 m.intoMir).2.size.height = f32Min ∧
    (placeNodes m.intoMir).2.size.height = f32Min + 100 := by
  have ht : m.intoMir.bodyChildren = [] := by rw [bodyChildren_eq, tables_intoMir, h]; rfl
  unfold placeNodesR placeNodes
  rw [ht]
  simp only [List.zipIdx_nil, List.foldl_nil]
  constructor <;> decide +kernel

example : definitions (⟨some c!"empty", [.relation ⟨.entity c!"a", .entity c!"b"⟩]⟩ : Module).entries = [] := rfl

end Seiren
