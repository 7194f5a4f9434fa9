import Mathlib.Algebra.Order.Round
import Verif.Model.F32Draw
import Verif.Props.F32
/-! # Facts about binary32 rounding and square root used for C57 -/

namespace Seiren
open Spec

/-- What is used of the rounding function and of the square root. -/
structure Rounding (rnd sq : Rat → Rat) : Prop where
  exact : ∀ q, IsF32 q → rnd q = q
  mono : ∀ p q, |p| ≤ f32Max → |q| ≤ f32Max → p ≤ q → rnd p ≤ rnd q
  idem : ∀ q, |q| ≤ f32Max → rnd (rnd q) = rnd q
  big : ∀ x, |x| ≤ 2 ^ 22 → rnd (f32Max + x) = f32Max ∧ rnd (-f32Max + x) = -f32Max
  sqrt : ∀ n : Int, |n| ≤ 2 ^ 23 → sq (rnd ((n : Rat) / 2 * ((n : Rat) / 2))) = |(n : Rat)| / 2

theorem roundF32_mono (p q : Rat) (hp : |p| ≤ f32Max) (hq : |q| ≤ f32Max) (h : p ≤ q) : roundF32 p ≤ roundF32 q := by
  by_contra hc
  rw [not_le] at hc
  have h1 := roundF32_nearest p _ (roundF32_isF32 q hq)
  have h2 := roundF32_nearest q _ (roundF32_isF32 p hp)
  generalize hP : roundF32 p = P at *
  generalize hQ : roundF32 q = Q at *
  have a1 : P + Q ≤ 2 * p := by
    by_contra hlt
    rw [not_le] at hlt
    have : |Q - p| < |P - p| := by
      rw [abs_lt]
      have : |P - p| = P - p := abs_of_pos (by linarith)
      rw [this]; constructor <;> linarith
    linarith
  have a2 : 2 * q ≤ P + Q := by
    by_contra hlt
    rw [not_le] at hlt
    have : |P - q| < |Q - q| := by
      rw [abs_lt]
      have : |Q - q| = q - Q := by rw [abs_of_neg (by linarith)]; ring
      rw [this]; constructor <;> linarith
    linarith
  have : p = q := by linarith
  rw [this, hQ] at hP
  linarith

theorem roundHalfEven_err (q : Rat) : |(roundHalfEven q : Rat) - q| ≤ 1 / 2 := by
  refine (roundHalfEven_nearest q (round q)).trans ?_
  rw [abs_sub_comm]
  exact abs_sub_round q

/-- The error is at most half a unit in the last place. -/
theorem roundF32_err (q : Rat) : |roundF32 q - q| ≤ 2 ^ ulpExp q / 2 := by
  have hu := two_zpow_pos (ulpExp q)
  unfold roundF32
  split
  · rename_i h; subst h; rw [sub_self, abs_zero]; exact (half_pos hu).le
  · rw [show (roundHalfEven (q / 2 ^ ulpExp q) : Rat) * 2 ^ ulpExp q - q =
      ((roundHalfEven (q / 2 ^ ulpExp q) : Rat) - q / 2 ^ ulpExp q) * 2 ^ ulpExp q by field_simp, abs_mul, abs_of_pos hu]
    have := mul_le_mul_of_nonneg_right (roundHalfEven_err (q / 2 ^ ulpExp q)) hu.le
    linarith

theorem log_eq {q : Rat} {e : Int} (h1 : 2 ^ e ≤ q) (h2 : q < 2 ^ (e + 1)) : Int.log 2 q = e := by
  have hpos : 0 < q := lt_of_lt_of_le (two_zpow_pos e) h1
  have a1 := (Int.zpow_le_iff_le_log (b := 2) (by norm_num) hpos (x := e)).mp (by exact_mod_cast h1)
  have a2 := (Int.lt_zpow_iff_log_lt (b := 2) (by norm_num) hpos (x := e + 1)).mp (by exact_mod_cast h2)
  omega

theorem roundF32_big (x : Rat) (hx : |x| ≤ 2 ^ 22) : roundF32 (f32Max + x) = f32Max ∧ roundF32 (-f32Max + x) = -f32Max := by
  have key : ∀ y : Rat, |y| ≤ 2 ^ 22 → ulpExp (f32Max + y) = 104 ∧ ulpExp (-f32Max + y) = 104 := by
    intro y hy
    obtain ⟨h1, h2⟩ := abs_le.mp hy
    unfold ulpExp
    rw [abs_of_pos (by unfold f32Max; linarith), abs_of_neg (by unfold f32Max; linarith)]
    rw [log_eq (e := 127) (by unfold f32Max; norm_num; linarith) (by unfold f32Max; norm_num; linarith),
      log_eq (e := 127) (by unfold f32Max; norm_num; linarith) (by unfold f32Max; norm_num; linarith)]
    decide
  obtain ⟨h1, h2⟩ := abs_le.mp hx
  have hf : f32Max = ((2 ^ 24 - 1 : Int) : Rat) * 2 ^ (104 : Int) := by unfold f32Max; norm_num
  have hround : ∀ (m : Int) (y : Rat), |y| < 1 / 2 → roundHalfEven (m + y) = m := by
    intro m y hy
    have hh := roundHalfEven_err (m + y)
    have : |((roundHalfEven (m + y) - m : Int) : Rat)| < 1 := by
      push_cast
      calc |((roundHalfEven (m + y) : Int) : Rat) - m| = |(((roundHalfEven (m + y) : Int) : Rat) - (m + y)) + y| := by ring_nf
        _ ≤ |((roundHalfEven (m + y) : Int) : Rat) - (m + y)| + |y| := abs_add_le _ _
        _ < 1 := by linarith
    have : |roundHalfEven (m + y) - m| < 1 := by exact_mod_cast this
    rw [Int.abs_lt_one_iff] at this
    omega
  have hy : |x / 2 ^ (104 : Int)| < 1 / 2 := by
    rw [abs_div, abs_of_pos (two_zpow_pos 104), div_lt_iff₀ (two_zpow_pos 104)]
    norm_num at hx ⊢
    linarith
  constructor
  · unfold roundF32
    rw [if_neg (by unfold f32Max; intro hh; linarith), (key x hx).1,
      show (f32Max + x) / 2 ^ (104 : Int) = ((2 ^ 24 - 1 : Int) : Rat) + x / 2 ^ (104 : Int) by
        rw [hf, add_div, mul_div_cancel_right₀ _ (two_zpow_pos 104).ne'], hround _ _ hy, hf]
  · unfold roundF32
    rw [if_neg (by unfold f32Max; intro hh; linarith), (key x hx).2,
      show (-f32Max + x) / 2 ^ (104 : Int) = ((-(2 ^ 24 - 1) : Int) : Rat) + x / 2 ^ (104 : Int) by
        rw [hf, add_div, neg_div, mul_div_cancel_right₀ _ (two_zpow_pos 104).ne']; push_cast; ring, hround _ _ hy, hf]
    push_cast
    ring

/-! ## The square root -/

theorem two_zpow_double (u : Int) : (2 : Rat) ^ (2 * u) = 2 ^ u * 2 ^ u := by
  rw [two_mul, zpow_add₀ (by norm_num)]

/-- `sqrtF32` of a number that is, in units `2^(2u)`, close to the square of `m`. -/
theorem sqrtF32_near (m : Nat) (u : Int) (y : Rat) (h1 : 2 ^ 23 ≤ m) (h2 : m < 2 ^ 24) (hlo : 2 ^ (46 + 2 * u) ≤ y)
    (hhi : y < 2 ^ (48 + 2 * u)) (a1 : y / 2 ^ (2 * u) < ((m : Rat) + 1 / 2) ^ 2) (a2 : ((m : Rat) - 1 / 2) ^ 2 < y / 2 ^ (2 * u)) :
    sqrtF32 y = m * 2 ^ u := by
  have hpos : 0 < y := lt_of_lt_of_le (two_zpow_pos _) hlo
  have hu : Int.log 2 y / 2 - 23 = u := by
    have b1 := (Int.zpow_le_iff_le_log (b := 2) (by norm_num) hpos (x := 46 + 2 * u)).mp (by exact_mod_cast hlo)
    have b2 := (Int.lt_zpow_iff_log_lt (b := 2) (by norm_num) hpos (x := 48 + 2 * u)).mp (by exact_mod_cast hhi)
    omega
  unfold sqrtF32
  rw [if_neg (by linarith)]
  simp only [hu]
  generalize hs : y / 2 ^ (2 * u) = s at a1 a2
  have hm : (2 ^ 23 : Rat) ≤ m := by exact_mod_cast h1
  congr 1
  have hs0 : 0 ≤ s := by nlinarith
  have hf0 : 0 ≤ s.floor := by rw [Rat.le_floor_iff]; simpa using hs0
  have hfl : ((s.floor : Int) : Rat) ≤ s := Rat.floor_le s
  by_cases hsm : (m : Rat) ^ 2 ≤ s
  · have e : Nat.sqrt s.floor.toNat = m := by
      symm
      rw [Nat.eq_sqrt]
      constructor
      · have : ((m * m : Nat) : Int) ≤ s.floor := by rw [Rat.le_floor_iff]; push_cast; nlinarith
        omega
      · have : (s.floor : Rat) < ((((m + 1) * (m + 1) : Nat) : Int) : Rat) := by push_cast; nlinarith
        have : s.floor < (((m + 1) * (m + 1) : Nat) : Int) := by exact_mod_cast this
        omega
    rw [e]
    unfold belowMiddle
    rw [if_pos a1, if_pos rfl]
  · rw [not_le] at hsm
    obtain ⟨k, rfl⟩ : ∃ k, m = k + 1 := ⟨m - 1, by omega⟩
    push_cast at a1 a2 hsm ⊢
    have k0 : (0 : Rat) ≤ k := Nat.cast_nonneg _
    clear hm h1 h2 hlo hhi
    have e : Nat.sqrt s.floor.toNat = k := by
      symm
      rw [Nat.eq_sqrt]
      constructor
      · have : ((k * k : Nat) : Int) ≤ s.floor := by rw [Rat.le_floor_iff]; push_cast; nlinarith
        omega
      · have : (s.floor : Rat) < ((((k + 1) * (k + 1) : Nat) : Int) : Rat) := by push_cast; nlinarith
        have : s.floor < (((k + 1) * (k + 1) : Nat) : Int) := by exact_mod_cast this
        omega
    rw [e]
    have h3 : ((k : Rat) + 1 / 2) ^ 2 < s := by
      have : ((k : Rat) + 1 - 1 / 2) = (k : Rat) + 1 / 2 := by ring
      rwa [this] at a2
    have hb : belowMiddle s k = false := by
      unfold belowMiddle
      rw [if_neg (not_lt.mpr h3.le), if_pos h3]
    rw [hb]
    simp

/-- The distance between two points on the grid of half units is computed exactly. -/
theorem sqrtF32_square (n : Int) (hn : |n| ≤ 2 ^ 23) :
    sqrtF32 (roundF32 ((n : Rat) / 2 * ((n : Rat) / 2))) = |(n : Rat)| / 2 := by
  by_cases h0 : n = 0
  · subst h0; simp [roundF32, sqrtF32]
  -- `|n| / 2 = m * 2^u`, `m` with 24 bits
  have hx : 0 < |n| := abs_pos.mpr h0
  obtain ⟨a, ha⟩ := Int.eq_ofNat_of_zero_le hx.le
  have ha0 : a ≠ 0 := by omega
  have ha1 : a ≤ 2 ^ 23 := by omega
  have hl := Nat.log2_self_le ha0
  have hl2 : a < 2 ^ (Nat.log2 a + 1) := Nat.lt_log2_self
  have hlog : Nat.log2 a ≤ 23 := by
    by_contra hc
    have : 2 ^ 24 ≤ 2 ^ Nat.log2 a := Nat.pow_le_pow_right (by norm_num) (by omega)
    omega
  obtain ⟨d, hd⟩ : ∃ d, d + Nat.log2 a = 23 := ⟨23 - Nat.log2 a, by omega⟩
  obtain ⟨m, hm⟩ : ∃ m, m = a * 2 ^ d := ⟨_, rfl⟩
  obtain ⟨u, hu⟩ : ∃ u : Int, u = -(d : Int) - 1 := ⟨_, rfl⟩
  have hm1 : 2 ^ 23 ≤ m := by
    rw [hm, ← hd, pow_add, mul_comm]
    exact Nat.mul_le_mul_right _ hl
  have hm2 : m < 2 ^ 24 := by
    rw [hm, show 24 = d + (Nat.log2 a + 1) by omega, pow_add, mul_comm]
    exact Nat.mul_lt_mul_of_pos_left hl2 (by positivity)
  have hmu : |(n : Rat)| / 2 = m * 2 ^ u := by
    have : |(n : Rat)| = (a : Rat) := by
      rw [← Int.cast_abs, ha]; simp
    rw [this, hm, hu, zpow_sub₀ (by norm_num), zpow_neg, zpow_natCast, zpow_one]
    push_cast
    field_simp
  have hsq : (n : Rat) / 2 * ((n : Rat) / 2) = (m : Rat) ^ 2 * 2 ^ (2 * u) := by
    rw [two_zpow_double]
    calc (n : Rat) / 2 * ((n : Rat) / 2) = (|(n : Rat)| / 2) * (|(n : Rat)| / 2) := by
          rw [← abs_mul_abs_self ((n : Rat) / 2), abs_div, abs_two]
      _ = _ := by rw [hmu]; ring
  rw [hsq, hmu]
  have hM1 : (2 ^ 23 : Rat) ≤ m := by exact_mod_cast hm1
  have hM2 : (m : Rat) ≤ 2 ^ 24 - 1 := by
    have : (m : Rat) + 1 ≤ 2 ^ 24 := by exact_mod_cast hm2
    linarith
  have hw := two_zpow_pos (2 * u)
  have hub : -24 ≤ u ∧ u ≤ -1 := by omega
  have p46 : (2 : Rat) ^ (46 + 2 * u) = 2 ^ 46 * 2 ^ (2 * u) := by rw [zpow_add₀ (by norm_num)]; norm_num
  have p48 : (2 : Rat) ^ (48 + 2 * u) = 2 ^ 48 * 2 ^ (2 * u) := by rw [zpow_add₀ (by norm_num)]; norm_num
  have hle1 : (2 : Rat) ^ (2 * u) ≤ 1 := zpow_le_one_of_nonpos₀ (by norm_num) (by omega)
  have hQ : (m : Rat) ^ 2 * 2 ^ (2 * u) ≤ (2 ^ 48 - 2 ^ 24) * 2 ^ (2 * u) := mul_le_mul_of_nonneg_right (by nlinarith) hw.le
  have hQ0 : (2 : Rat) ^ 46 * 2 ^ (2 * u) ≤ (m : Rat) ^ 2 * 2 ^ (2 * u) := mul_le_mul_of_nonneg_right (by nlinarith) hw.le
  have habs : ∀ z : Rat, 0 ≤ z → z ≤ 2 ^ 48 * 2 ^ (2 * u) → |z| ≤ f32Max := by
    intro z hz1 hz2
    rw [abs_of_nonneg hz1]
    unfold f32Max
    nlinarith
  -- bounds for the rounded square
  have lo : 2 ^ (46 + 2 * u) ≤ roundF32 ((m : Rat) ^ 2 * 2 ^ (2 * u)) := by
    have hF : IsF32 ((2 : Rat) ^ 46 * 2 ^ (2 * u)) :=
      ⟨1, 46 + 2 * u, by norm_num, by omega, by omega, by rw [p46]; norm_num⟩
    rw [p46, ← roundF32_exact _ hF]
    exact roundF32_mono _ _ (habs _ (by positivity) (by nlinarith)) (habs _ (by positivity) (by linarith)) hQ0
  have hi : roundF32 ((m : Rat) ^ 2 * 2 ^ (2 * u)) < 2 ^ (48 + 2 * u) := by
    have hF : IsF32 (((2 : Rat) ^ 48 - 2 ^ 24) * 2 ^ (2 * u)) :=
      ⟨2 ^ 24 - 1, 24 + 2 * u, by norm_num, by omega, by omega, by rw [zpow_add₀ (by norm_num)]; push_cast; ring⟩
    have := roundF32_mono _ _ (habs _ (by positivity) (by linarith)) (habs _ (by
      have : (0 : Rat) ≤ (2 : Rat) ^ 48 - 2 ^ 24 := by norm_num
      positivity) (by linarith)) hQ
    rw [roundF32_exact _ hF] at this
    rw [p48]
    linarith
  -- the error
  have hulp : ulpExp ((m : Rat) ^ 2 * 2 ^ (2 * u)) ≤ 24 + 2 * u := by
    unfold ulpExp
    have hposq : 0 < (m : Rat) ^ 2 * 2 ^ (2 * u) := by linarith [mul_pos (by norm_num : (0 : Rat) < 2 ^ 46) hw]
    rw [abs_of_pos hposq]
    have := (Int.lt_zpow_iff_log_lt (b := 2) (by norm_num) hposq (x := 48 + 2 * u)).mp (by
      push_cast; rw [p48]; linarith)
    omega
  have herr : |roundF32 ((m : Rat) ^ 2 * 2 ^ (2 * u)) - (m : Rat) ^ 2 * 2 ^ (2 * u)| ≤ 2 ^ 23 * 2 ^ (2 * u) := by
    refine (roundF32_err _).trans ?_
    have : (2 : Rat) ^ ulpExp ((m : Rat) ^ 2 * 2 ^ (2 * u)) ≤ 2 ^ (24 + 2 * u) := zpow_le_zpow_right₀ (by norm_num) hulp
    rw [zpow_add₀ (by norm_num)] at this
    norm_num at this ⊢
    linarith
  have hdiv : ∀ z : Rat, (z - (m : Rat) ^ 2 * 2 ^ (2 * u)) = (z / 2 ^ (2 * u) - m ^ 2) * 2 ^ (2 * u) := by
    intro z; field_simp
  rw [hdiv, abs_mul, abs_of_pos hw] at herr
  have herr := le_of_mul_le_mul_right herr hw
  obtain ⟨e1, e2⟩ := abs_le.mp herr
  apply sqrtF32_near m u _ hm1 hm2 lo hi
  · nlinarith
  · rcases eq_or_lt_of_le hm1 with he | hlt
    · have hF : IsF32 ((m : Rat) ^ 2 * 2 ^ (2 * u)) :=
        ⟨1, 46 + 2 * u, by norm_num, by omega, by omega, by rw [p46, ← he]; norm_num⟩
      rw [roundF32_exact _ hF, mul_div_cancel_right₀ _ hw.ne']
      nlinarith
    · have : (2 : Rat) ^ 23 + 1 ≤ m := by exact_mod_cast hlt
      nlinarith

/-! ## The square root is correctly rounded -/

theorem isF32_multiple {r : Rat} (hr : IsF32 r) {u : Int} (h : 2 ^ 23 * 2 ^ u ≤ r) : ∃ k : Int, r = k * 2 ^ u := by
  obtain ⟨m, e, hm, -, -, rfl⟩ := hr
  have hue : u ≤ e := by
    by_contra hc
    have h1 : (m : Rat) < 2 ^ 24 := by
      have : m < 2 ^ 24 := lt_of_le_of_lt (le_abs_self m) hm
      exact_mod_cast this
    have h2 : (m : Rat) * 2 ^ e < 2 ^ 24 * 2 ^ e := mul_lt_mul_of_pos_right h1 (two_zpow_pos e)
    have h3 : (2 : Rat) ^ (e + 1) ≤ 2 ^ u := zpow_le_zpow_right₀ (by norm_num) (by omega)
    rw [zpow_add₀ (by norm_num), zpow_one] at h3
    linarith
  obtain ⟨d, hd⟩ := Int.eq_ofNat_of_zero_le (sub_nonneg.mpr hue)
  refine ⟨m * 2 ^ d, ?_⟩
  rw [show e = (d : Int) + u by omega, zpow_add₀ (by norm_num)]
  push_cast
  rw [zpow_natCast]
  ring

/-- The square root of a positive number is a number of the format, and none is nearer to the true root: the middle
between it and any other one lies on the other one's side of the root. -/
theorem sqrtF32_nearest (q : Rat) (hq : 0 < q) (hlo : 2 ^ (-149 : Int) ≤ q) (hhi : q ≤ f32Max) :
    IsF32 (sqrtF32 q) ∧ 0 < sqrtF32 q ∧
    (∀ r, IsF32 r → 0 ≤ r → r < sqrtF32 q → ((r + sqrtF32 q) / 2) ^ 2 ≤ q) ∧
    (∀ r, IsF32 r → sqrtF32 q < r → q ≤ ((r + sqrtF32 q) / 2) ^ 2) := by
  have b1 := (Int.zpow_le_iff_le_log (b := 2) (by norm_num) hq (x := -149)).mp (by exact_mod_cast hlo)
  have b2 := (Int.lt_zpow_iff_log_lt (b := 2) (by norm_num) hq (x := 128)).mp (by
    refine lt_of_le_of_lt hhi ?_; unfold f32Max; norm_num)
  have c1 : (2 : Rat) ^ (Int.log 2 q) ≤ q := by
    have := Int.zpow_log_le_self (b := 2) (by norm_num) hq
    exact_mod_cast this
  have c2 : q < (2 : Rat) ^ (Int.log 2 q + 1) := by
    have := Int.lt_zpow_succ_log_self (b := 2) (by norm_num) q
    exact_mod_cast this
  unfold sqrtF32
  rw [if_neg (by linarith)]
  simp only
  obtain ⟨u, hu⟩ : ∃ u, u = Int.log 2 q / 2 - 23 := ⟨_, rfl⟩
  rw [← hu]
  have hw := two_zpow_pos (2 * u)
  have hv := two_zpow_pos u
  have d1 : 2 ^ 46 * 2 ^ (2 * u) ≤ q := by
    refine le_trans ?_ c1
    rw [show (2 : Rat) ^ 46 = 2 ^ (46 : Int) by norm_num, ← zpow_add₀ (by norm_num)]
    exact zpow_le_zpow_right₀ (by norm_num) (by omega)
  have d2 : q < 2 ^ 48 * 2 ^ (2 * u) := by
    refine lt_of_lt_of_le c2 ?_
    rw [show (2 : Rat) ^ 48 = 2 ^ (48 : Int) by norm_num, ← zpow_add₀ (by norm_num)]
    exact zpow_le_zpow_right₀ (by norm_num) (by omega)
  obtain ⟨s, hs⟩ : ∃ s, s = q / 2 ^ (2 * u) := ⟨_, rfl⟩
  have hqs : q = s * 2 ^ (2 * u) := by rw [hs]; field_simp
  rw [← hs]
  have s1 : 2 ^ 46 ≤ s := by rw [hqs] at d1; exact le_of_mul_le_mul_right d1 hw
  have s2 : s < 2 ^ 48 := by rw [hqs] at d2; exact lt_of_mul_lt_mul_right d2 hw.le
  have hf0 : 0 ≤ s.floor := by rw [Rat.le_floor_iff]; push_cast; linarith
  have hfl : ((s.floor : Int) : Rat) ≤ s := Rat.floor_le s
  have hfu : s < ((s.floor : Int) : Rat) + 1 := by
    have := Rat.lt_floor_add_one s
    push_cast at this
    exact this
  obtain ⟨f, hf⟩ := Int.eq_ofNat_of_zero_le hf0
  obtain ⟨n, hn⟩ : ∃ n, n = Nat.sqrt s.floor.toNat := ⟨_, rfl⟩
  rw [← hn]
  have hn' := hn
  rw [Nat.eq_sqrt, hf, Int.toNat_natCast] at hn'
  obtain ⟨n1, n2⟩ := hn'
  rw [hf] at hfl hfu
  have t1 : (n : Rat) ^ 2 ≤ s := by
    have : ((n * n : Nat) : Rat) ≤ (f : Nat) := by exact_mod_cast n1
    push_cast at this hfl
    nlinarith
  have t2 : s < ((n : Rat) + 1) ^ 2 := by
    have : ((f + 1 : Nat) : Rat) ≤ ((n + 1) * (n + 1) : Nat) := by exact_mod_cast n2
    push_cast at this hfu
    nlinarith
  have n0 : (0 : Rat) ≤ n := Nat.cast_nonneg _
  have k1 : 2 ^ 23 ≤ n := by
    by_contra hc
    have : (n : Rat) + 1 ≤ 2 ^ 23 := by exact_mod_cast (by omega : n + 1 ≤ 2 ^ 23)
    nlinarith
  have k2 : n < 2 ^ 24 := by
    by_contra hc
    have : (2 : Rat) ^ 24 ≤ n := by exact_mod_cast (by omega : 2 ^ 24 ≤ n)
    nlinarith
  have K1 : (2 : Rat) ^ 23 ≤ n := by exact_mod_cast k1
  have hscale : ∀ a b : Rat, ((a * 2 ^ u + b * 2 ^ u) / 2) ^ 2 = ((a + b) / 2) ^ 2 * 2 ^ (2 * u) := by
    intro a b; rw [two_zpow_double]; ring
  have hr' : ∀ r : Rat, r = r / 2 ^ u * 2 ^ u := fun r => by field_simp
  by_cases hb : belowMiddle s n = true
  · rw [if_pos hb]
    have t3 : s ≤ ((n : Rat) + 1 / 2) ^ 2 := by
      unfold belowMiddle at hb
      split_ifs at hb
      · rename_i h; exact h.le
      · rename_i h; linarith
    refine ⟨⟨n, u, by rw [abs_of_nonneg (by omega)]; omega, by omega, by omega, by push_cast; rfl⟩, by positivity, ?_, ?_⟩
    · intro r _ hr0 hrs
      rw [hr' r, hscale, hqs]
      apply mul_le_mul_of_nonneg_right _ hw.le
      have x1 : r / 2 ^ u < n := by rw [div_lt_iff₀ hv]; exact hrs
      have x0 : 0 ≤ r / 2 ^ u := by positivity
      nlinarith
    · intro r hr hrs
      obtain ⟨k, rfl⟩ := isF32_multiple hr (u := u) (le_trans (mul_le_mul_of_nonneg_right K1 hv.le) hrs.le)
      have x1 : (n : Rat) < k := lt_of_mul_lt_mul_right hrs hv.le
      have x2 : (n : Rat) + 1 ≤ k := by
        have : ((n : Int) : Rat) < (k : Rat) := by push_cast; exact x1
        have : (n : Int) < k := by exact_mod_cast this
        have : (n : Int) + 1 ≤ k := this
        exact_mod_cast this
      rw [hscale, hqs]
      apply mul_le_mul_of_nonneg_right _ hw.le
      nlinarith
  · rw [if_neg hb]
    have t3 : ((n : Rat) + 1 / 2) ^ 2 ≤ s := by
      unfold belowMiddle at hb
      split_ifs at hb
      · rename_i h; exact absurd rfl hb
      · rename_i h; exact h.le
      · rename_i h1 h2; linarith
    refine ⟨?_, by positivity, ?_, ?_⟩
    · rcases Nat.lt_or_ge (n + 1) (2 ^ 24) with h | h
      · exact ⟨n + 1, u, by rw [abs_of_nonneg (by omega)]; omega, by omega, by omega, by push_cast; rfl⟩
      · refine ⟨2 ^ 23, u + 1, by norm_num, by omega, by omega, ?_⟩
        have : (n : Rat) + 1 = 2 ^ 24 := by exact_mod_cast (by omega : n + 1 = 2 ^ 24)
        rw [this, zpow_add₀ (by norm_num)]
        push_cast
        ring
    · intro r hr hr0 hrs
      have x3 : r / 2 ^ u ≤ n := by
        rcases le_total (2 ^ 23 * 2 ^ u) r with h | h
        · obtain ⟨k, rfl⟩ := isF32_multiple hr h
          rw [mul_div_cancel_right₀ _ hv.ne']
          have x1 : (k : Rat) < (n : Rat) + 1 := lt_of_mul_lt_mul_right hrs hv.le
          have : (k : Rat) < ((n + 1 : Int) : Rat) := by push_cast; exact x1
          have : k < (n : Int) + 1 := by exact_mod_cast this
          have : k ≤ (n : Int) := by omega
          exact_mod_cast this
        · rw [div_le_iff₀ hv]
          exact h.trans (mul_le_mul_of_nonneg_right K1 hv.le)
      have x0 : 0 ≤ r / 2 ^ u := by positivity
      rw [hr' r, hscale, hqs]
      apply mul_le_mul_of_nonneg_right _ hw.le
      nlinarith
    · intro r _ hrs
      rw [hr' r, hscale, hqs]
      apply mul_le_mul_of_nonneg_right _ hw.le
      have x1 : (n : Rat) + 1 < r / 2 ^ u := by rw [lt_div_iff₀ hv]; exact hrs
      nlinarith

/-! ## The instances -/

/-- Rounding with arbitrary behaviour `ovf` on overflow (the threshold of IEEE 754). -/
def roundOr (ovf : Rat → Rat) (q : Rat) : Rat := if |q| < 2 ^ 128 - 2 ^ 103 then roundF32 q else ovf q

theorem roundOr_eq (ovf : Rat → Rat) (q : Rat) (h : |q| < 2 ^ 128 - 2 ^ 103) : roundOr ovf q = roundF32 q := if_pos h

theorem f32Max_lt : f32Max < 2 ^ 128 - 2 ^ 103 := by unfold f32Max; norm_num

theorem rounding_f32 (ovf : Rat → Rat) : Rounding (roundOr ovf) sqrtF32 := by
  have hle : ∀ q, |q| ≤ f32Max → roundOr ovf q = roundF32 q := fun q h => roundOr_eq ovf q (lt_of_le_of_lt h f32Max_lt)
  have hF : ∀ q, IsF32 q → |q| ≤ f32Max := by
    rintro q ⟨m, e, hm, -, he, rfl⟩
    rw [abs_mul, abs_of_pos (two_zpow_pos e)]
    have h1 : |(m : Rat)| ≤ 2 ^ 24 - 1 := by
      have : |m| ≤ 2 ^ 24 - 1 := by omega
      have : ((|m| : Int) : Rat) ≤ ((2 ^ 24 - 1 : Int) : Rat) := by exact_mod_cast this
      rw [Int.cast_abs] at this
      norm_num at this ⊢
      exact this
    have h2 : (2 : Rat) ^ e ≤ 2 ^ (104 : Int) := zpow_le_zpow_right₀ (by norm_num) he
    calc |(m : Rat)| * 2 ^ e ≤ (2 ^ 24 - 1) * 2 ^ (104 : Int) := mul_le_mul h1 h2 (two_zpow_pos e).le (by norm_num)
      _ = f32Max := by unfold f32Max; norm_num
  constructor
  · intro q hq
    rw [hle q (hF q hq), roundF32_exact q hq]
  · intro p q hp hq h
    rw [hle p hp, hle q hq]
    exact roundF32_mono p q hp hq h
  · intro q hq
    have := roundF32_isF32 q hq
    rw [hle q hq, hle _ (hF _ this), roundF32_exact _ this]
  · intro x hx
    obtain ⟨h1, h2⟩ := roundF32_big x hx
    obtain ⟨b1, b2⟩ := abs_le.mp hx
    rw [roundOr_eq, roundOr_eq, h1, h2]
    · exact ⟨rfl, rfl⟩
    · rw [abs_lt]; unfold f32Max; constructor <;> linarith
    · rw [abs_lt]; unfold f32Max; constructor <;> linarith
  · intro n hn
    rw [hle, sqrtF32_square n hn]
    have h1 : |(n : Rat)| ≤ 2 ^ 23 := by
      have : ((|n| : Int) : Rat) ≤ ((2 ^ 23 : Int) : Rat) := by exact_mod_cast hn
      rw [Int.cast_abs] at this
      push_cast at this
      exact this
    rw [abs_mul, abs_div, abs_two]
    have h0 := abs_nonneg (n : Rat)
    unfold f32Max
    nlinarith

end Seiren
