import Verif.Model.Ieee
import Verif.Proofs.F32Geometry
import Verif.Proofs.Display
/-!
# The values of `f32` and the rational numbers
-/

namespace Seiren
open Spec

/-! ## Rounding -/

theorem roundHalfEven_neg (x : Rat) : roundHalfEven (-x) = -roundHalfEven x := by
  have h1 := Rat.floor_le x
  have h2 := Rat.lt_floor_add_one x
  by_cases hx : x = (x.floor : Rat)
  · rw [hx, ← Int.cast_neg, roundHalfEven_int, roundHalfEven_int]
  · have hlt : (x.floor : Rat) < x := lt_of_le_of_ne h1 fun h => hx h.symm
    have hf : (-x).floor = -x.floor - 1 := by
      have a1 := Rat.floor_le (-x)
      have a2 := Rat.lt_floor_add_one (-x)
      push_cast at h2 a2
      have b1 : (((-x).floor : Int) : Rat) < ((-x.floor : Int) : Rat) := by push_cast; linarith
      have b2 : ((-x.floor - 2 : Int) : Rat) < (((-x).floor : Int) : Rat) := by push_cast; linarith
      have c1 : (-x).floor < -x.floor := by exact_mod_cast b1
      have c2 : -x.floor - 2 < (-x).floor := by exact_mod_cast b2
      omega
    unfold roundHalfEven
    simp only
    rw [hf]
    push_cast
    rcases lt_trichotomy (x - x.floor) (1 / 2) with h | h | h
    · rw [if_neg (by linarith), if_pos (by linarith), if_pos h]; ring
    · have n1 : ¬ (-x - (-(x.floor : Rat) - 1) < 1 / 2) := by linarith
      have n2 : ¬ (1 / 2 < -x - (-(x.floor : Rat) - 1)) := by linarith
      have n3 : ¬ (x - (x.floor : Rat) < 1 / 2) := by linarith
      have n4 : ¬ (1 / 2 < x - (x.floor : Rat)) := by linarith
      rw [if_neg n1, if_neg n2, if_neg n3, if_neg n4]
      split <;> split <;> omega
    · rw [if_pos (by linarith), if_neg (by linarith), if_pos h]; ring

theorem roundF32_neg (q : Rat) : roundF32 (-q) = -roundF32 q := by
  unfold roundF32
  by_cases h : q = 0
  · simp [h]
  · have e : ulpExp (-q) = ulpExp q := by unfold ulpExp; rw [abs_neg]
    rw [if_neg h, if_neg (by simpa using h), e, neg_div, roundHalfEven_neg]
    push_cast
    ring

theorem roundF32_zero : roundF32 0 = 0 := by simp [roundF32]

theorem roundF32_nonneg {q : Rat} (h : 0 ≤ q) : 0 ≤ roundF32 q := by
  have := roundF32_mono_pos (le_refl 0) h
  rwa [roundF32_zero] at this

theorem roundF32_le {p q : Rat} (h : p ≤ q) : roundF32 p ≤ roundF32 q := by
  rcases le_total 0 p with hp | hp
  · exact roundF32_mono_pos hp h
  · rcases le_total 0 q with hq | hq
    · have h1 := roundF32_nonneg (q := -p) (by linarith)
      rw [roundF32_neg] at h1
      have h2 := roundF32_nonneg hq
      linarith
    · have := roundF32_mono_pos (p := -q) (q := -p) (by linarith) (by linarith)
      rw [roundF32_neg, roundF32_neg] at this
      linarith

theorem roundF32_top {q : Rat} (h1 : f32Max ≤ q) (h2 : q < 2 ^ 128 - 2 ^ 103) : roundF32 q = f32Max := by
  have hpos : 0 < q := lt_of_lt_of_le (by unfold f32Max; norm_num) h1
  have hu : ulpExp q = 104 := by
    unfold ulpExp
    rw [abs_of_pos hpos, log_eq (e := 127) (le_trans (by unfold f32Max; norm_num) h1) (lt_trans h2 (by norm_num))]
    decide
  have hf : f32Max = ((2 ^ 24 - 1 : Int) : Rat) * 2 ^ (104 : Int) := by unfold f32Max; norm_num
  refine le_antisymm ?_ ?_
  · unfold roundF32
    rw [if_neg hpos.ne', hu, hf]
    refine mul_le_mul_of_nonneg_right ?_ (two_zpow_pos 104).le
    have he := (abs_le.mp (roundHalfEven_err (q / 2 ^ (104 : Int)))).2
    have hq : q / 2 ^ (104 : Int) < 2 ^ 24 - 1 / 2 := by
      rw [div_lt_iff₀ (two_zpow_pos 104)]
      refine lt_of_lt_of_le h2 (le_of_eq ?_)
      norm_num
    have : ((roundHalfEven (q / 2 ^ (104 : Int)) : Int) : Rat) < ((2 ^ 24 : Int) : Rat) := by push_cast; linarith
    have : roundHalfEven (q / 2 ^ (104 : Int)) < 2 ^ 24 := by exact_mod_cast this
    have : roundHalfEven (q / 2 ^ (104 : Int)) ≤ 2 ^ 24 - 1 := by omega
    exact_mod_cast this
  · have := roundF32_le h1
    rwa [roundF32_exact f32Max ⟨2 ^ 24 - 1, 104, by norm_num, by norm_num, by norm_num, hf⟩] at this

theorem isF32_neg {q : Rat} (h : IsF32 q) : IsF32 (-q) := by
  obtain ⟨m, e, h1, h2, h3, rfl⟩ := h
  exact ⟨-m, e, by rwa [abs_neg], h2, h3, by push_cast; ring⟩

theorem isF32_max : IsF32 f32Max := ⟨2 ^ 24 - 1, 104, by norm_num, by norm_num, by norm_num, by unfold f32Max; norm_num⟩

theorem isF32_abs {q : Rat} (h : IsF32 q) : |q| ≤ f32Max := by
  rw [abs_le]
  exact ⟨by linarith [isF32_le_max (isF32_neg h)], isF32_le_max h⟩

/-- Below the middle between the largest number and the next power of two, rounding gives a number of the format. -/
theorem roundF32_format {q : Rat} (h : |q| < 2 ^ 128 - 2 ^ 103) : IsF32 (roundF32 q) := by
  rcases le_or_gt |q| f32Max with hq | hq
  · exact roundF32_isF32 q hq
  · rcases lt_abs.mp hq with hq | hq
    · rw [roundF32_top hq.le ((le_abs_self q).trans_lt h)]
      exact isF32_max
    · have := roundF32_top hq.le ((neg_le_abs q).trans_lt h)
      rw [roundF32_neg] at this
      rw [show roundF32 q = -f32Max by linarith]
      exact isF32_neg isF32_max

/-! ## Finite values -/

/-- The value is a number of the format, `q`; 0 if it is one of the two zeros. -/
def Spec.Val : Fl → Rat → Prop
  | .zero _, q => q = 0
  | .fin r, q => r = q ∧ q ≠ 0 ∧ IsF32 q
  | _, _ => False

theorem Spec.Val.format {x : Fl} {q : Rat} (h : Val x q) : IsF32 q := by
  cases x with
  | nan => cases h
  | inf s => cases h
  | zero s => cases h; exact ⟨0, 0, by norm_num, by norm_num, by norm_num, by simp⟩
  | fin r => exact h.2.2

theorem Spec.Val.toRat {x : Fl} {q : Rat} (h : Val x q) : x.toRat = q := by
  cases x with
  | nan => cases h
  | inf s => cases h
  | zero s => cases h; rfl
  | fin r => exact h.1

theorem Spec.Val.cases {x : Fl} {q : Rat} (h : Val x q) : (∃ s, x = .zero s ∧ q = 0) ∨ (x = .fin q ∧ q ≠ 0) := by
  cases x with
  | nan => cases h
  | inf s => cases h
  | zero s => exact Or.inl ⟨s, rfl, h⟩
  | fin r => obtain ⟨rfl, h1, -⟩ := h; exact Or.inr ⟨rfl, h1⟩

theorem val_ofRat {q : Rat} (h : |q| < 2 ^ 128 - 2 ^ 103) (s : Bool) : Val (Fl.ofRat s q) (roundF32 q) := by
  unfold Fl.ofRat
  by_cases h0 : q = 0
  · rw [if_pos h0, h0, roundF32_zero]; rfl
  · rw [if_neg h0, if_neg (not_le.mpr h)]
    by_cases h1 : roundF32 q = 0
    · rw [if_pos h1]; exact h1
    · rw [if_neg h1]; exact ⟨rfl, h1, roundF32_format h⟩

theorem val_neg {x : Fl} {q : Rat} (h : Val x q) : Val (Fl.neg x) (-q) := by
  rcases h.cases with ⟨s, rfl, rfl⟩ | ⟨rfl, h0⟩
  · exact neg_zero
  · exact ⟨rfl, by simpa using h0, isF32_neg h.format⟩

section
variable {x y : Fl} {p q : Rat}

theorem val_add (hx : Val x p) (hy : Val y q) (h : |p + q| < 2 ^ 128 - 2 ^ 103) : Val (Fl.add x y) (roundF32 (p + q)) := by
  have key := val_ofRat h false
  rcases hx.cases with ⟨s, rfl, rfl⟩ | ⟨rfl, h0⟩ <;> rcases hy.cases with ⟨t, rfl, rfl⟩ | ⟨rfl, h1⟩
  · simp [Fl.add, Val, roundF32_zero]
  · exact key
  · exact key
  · exact key

theorem val_sub (hx : Val x p) (hy : Val y q) (h : |p - q| < 2 ^ 128 - 2 ^ 103) : Val (Fl.sub x y) (roundF32 (p - q)) := by
  rw [sub_eq_add_neg] at h ⊢
  exact val_add hx (val_neg hy) h

theorem val_mul (hx : Val x p) (hy : Val y q) (h : |p * q| < 2 ^ 128 - 2 ^ 103) : Val (Fl.mul x y) (roundF32 (p * q)) := by
  have key := val_ofRat h
  rcases hx.cases with ⟨s, rfl, rfl⟩ | ⟨rfl, h0⟩ <;> rcases hy.cases with ⟨t, rfl, rfl⟩ | ⟨rfl, h1⟩ <;> exact key _

theorem val_div (hx : Val x p) (hy : Val y q) (hq : q ≠ 0) (h : |p / q| < 2 ^ 128 - 2 ^ 103) : Val (Fl.div x y) (roundF32 (p / q)) := by
  have key := val_ofRat h
  rcases hx.cases with ⟨s, rfl, rfl⟩ | ⟨rfl, h0⟩ <;> rcases hy.cases with ⟨t, rfl, rfl⟩ | ⟨rfl, h1⟩
  · exact absurd rfl hq
  · exact key _
  · exact absurd rfl hq
  · exact key _

theorem val_lt (hx : Val x p) (hy : Val y q) : Fl.lt x y = decide (p < q) := by
  rcases hx.cases with ⟨s, rfl, rfl⟩ | ⟨rfl, h0⟩ <;> rcases hy.cases with ⟨t, rfl, rfl⟩ | ⟨rfl, h1⟩ <;> rfl

theorem val_eq (hx : Val x p) (hy : Val y q) : Fl.eq x y = decide (p = q) := by
  rcases hx.cases with ⟨s, rfl, rfl⟩ | ⟨rfl, h0⟩ <;> rcases hy.cases with ⟨t, rfl, rfl⟩ | ⟨rfl, h1⟩ <;> rfl

theorem val_le (hx : Val x p) (hy : Val y q) : Fl.le x y = decide (p ≤ q) := by
  rw [Fl.le, val_lt hx hy, val_eq hx hy, ← Bool.decide_or]
  simp only [le_iff_lt_or_eq]

theorem val_ne_nan (hx : Val x p) : x ≠ .nan := by rintro rfl; cases hx

theorem val_max (tie : Fl → Fl → Bool) (hx : Val x p) (hy : Val y q) : Val (Fl.max tie x y) (max p q) := by
  unfold Fl.max
  rw [if_neg (val_ne_nan hx), if_neg (val_ne_nan hy), val_lt hx hy, val_lt hy hx]
  simp only [decide_eq_true_eq]
  by_cases h1 : p < q
  · rw [if_pos h1, max_eq_right h1.le]; exact hy
  · by_cases h2 : q < p
    · rw [if_neg h1, if_pos h2, max_eq_left h2.le]; exact hx
    · have : p = q := le_antisymm (not_lt.mp h2) (not_lt.mp h1)
      subst this
      rw [if_neg h1, if_neg h1, max_self]
      split <;> assumption

theorem val_min (tie : Fl → Fl → Bool) (hx : Val x p) (hy : Val y q) : Val (Fl.min tie x y) (min p q) := by
  unfold Fl.min
  rw [if_neg (val_ne_nan hx), if_neg (val_ne_nan hy), val_lt hx hy, val_lt hy hx]
  simp only [decide_eq_true_eq]
  by_cases h1 : p < q
  · rw [if_pos h1, min_eq_left h1.le]; exact hx
  · by_cases h2 : q < p
    · rw [if_neg h1, if_pos h2, min_eq_right h2.le]; exact hy
    · have : p = q := le_antisymm (not_lt.mp h2) (not_lt.mp h1)
      subst this
      rw [if_neg h1, if_neg h1, min_self]
      split <;> assumption

end

theorem val_zero (s : Bool) : Val (.zero s) 0 := rfl
theorem val_one : Val Fl.one 1 := ⟨rfl, by norm_num, isF32_one⟩
theorem val_two : Val Fl.two 2 := ⟨rfl, by norm_num, ⟨1, 1, by norm_num, by norm_num, by norm_num, by norm_num⟩⟩
theorem val_MAX : Val Fl.MAX f32Max := ⟨rfl, by unfold f32Max; norm_num, isF32_max⟩
theorem val_MIN : Val Fl.MIN f32Min := ⟨rfl, by unfold f32Min; norm_num, isF32_neg isF32_max⟩

end Seiren
