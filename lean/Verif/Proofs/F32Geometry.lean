import Verif.Proofs.F32Round
import Verif.Proofs.Scene
/-! # Rounded geometry on the grid of half units agrees with exact geometry -/

namespace Seiren
open Spec

/-- A coordinate of a diagram: a half integer between 0 and 2^22. -/
def Coord (q : Rat) : Prop := ∃ n : Nat, n ≤ 2 ^ 23 ∧ q = (n : Rat) / 2

theorem Coord.bounds {q : Rat} (h : Coord q) : 0 ≤ q ∧ q ≤ 2 ^ 22 := by
  obtain ⟨n, hn, rfl⟩ := h
  have h1 : (n : Rat) ≤ 2 ^ 23 := by exact_mod_cast hn
  have h0 : (0 : Rat) ≤ n := Nat.cast_nonneg n
  constructor <;> linarith

theorem Coord.f32 {q : Rat} (h : Coord q) : IsF32 q := by
  obtain ⟨n, hn, rfl⟩ := h
  have := isF32_half n (by rw [abs_of_nonneg (by omega)]; omega)
  rwa [Int.cast_natCast] at this

theorem Coord.sub {p q : Rat} (hp : Coord p) (hq : Coord q) : ∃ n : Int, |n| ≤ 2 ^ 23 ∧ p - q = (n : Rat) / 2 := by
  obtain ⟨a, ha, rfl⟩ := hp
  obtain ⟨b, hb, rfl⟩ := hq
  refine ⟨(a : Int) - b, by rw [abs_le]; omega, ?_⟩
  push_cast
  ring

theorem Coord.sub_f32 {p q : Rat} (hp : Coord p) (hq : Coord q) : IsF32 (p - q) := by
  obtain ⟨n, hn, e⟩ := hp.sub hq
  rw [e]
  exact isF32_half n (by omega)

theorem intersectedLineR_id (r : Rect) (a b : Point) : r.intersectedLineR id a b = r.intersectedLine a b := rfl

theorem isF32_zero : IsF32 0 := ⟨0, 0, by norm_num, by norm_num, by norm_num, by simp⟩

theorem isF32_one : IsF32 1 := ⟨1, 0, by norm_num, by norm_num, by norm_num, by simp⟩

theorem fold3_le (u v : Rat) : (Rect.foldMax [0, 0, u] > Rect.foldMin [1, 1, v]) ↔ ¬ (u ≤ 1 ∧ 0 ≤ v ∧ u ≤ v) := by
  simp only [Rect.foldMax, Rect.foldMin, List.foldl_cons, List.foldl_nil, max_self, min_self, gt_iff_lt, lt_max_iff, min_lt_iff]
  constructor
  · rintro ((h | h) | (h | h)) ⟨h1, h2, h3⟩ <;> linarith
  · intro h
    by_contra hc
    push Not at hc
    refine h ⟨?_, ?_, ?_⟩ <;> linarith [hc.1.1, hc.1.2, hc.2.1, hc.2.2]

/-- Clipping a horizontal segment, as computed. -/
theorem intersectsLineR_h (rnd : Rat → Rat) (h0 : rnd 0 = 0) (r : Rect) (a b : Point) (hy : a.y = b.y) (x X D : Rat)
    (hx : (b.x < a.x ∧ x = b.x ∧ X = a.x) ∨ (¬ b.x < a.x ∧ x = a.x ∧ X = b.x)) (hD : rnd (X - x) = D) (hD0 : 0 < D) :
    r.intersectsLineR rnd a b = true ↔
      ¬ (x > r.minX ∧ rnd (x + D) < r.maxXR rnd ∧ a.y > r.minY ∧ rnd (a.y + 0) < r.maxYR rnd) ∧
      0 ≤ rnd (a.y - r.minY) ∧ 0 ≤ rnd (r.maxYR rnd - a.y) ∧
      rnd (rnd (x - r.minX) / -D) ≤ 1 ∧ 0 ≤ rnd (rnd (r.maxXR rnd - x) / D) ∧
      rnd (rnd (x - r.minX) / -D) ≤ rnd (rnd (r.maxXR rnd - x) / D) := by
  have hinit : (if b.x < a.x then (b.x, b.y, rnd (a.x - b.x), rnd (a.y - b.y))
      else (a.x, a.y, rnd (b.x - a.x), rnd (b.y - a.y))) = (x, a.y, D, (0 : Rat)) := by
    rcases hx with ⟨h1, h2, h3⟩ | ⟨h1, h2, h3⟩
    · rw [if_pos h1, ← h2, ← h3, hD, hy, sub_self, h0]
    · rw [if_neg h1, ← h2, ← h3, hD, hy, sub_self, h0]
  unfold Rect.intersectsLineR Rect.intersectedLineR
  simp only [hinit, neg_zero, neg_neg]
  split
  · rename_i h
    simp only [Option.isSome_none, Bool.false_eq_true, false_iff]
    exact fun hh => hh.1 h
  rename_i hc1
  split
  · rename_i h
    simp only [Option.isSome_none, Bool.false_eq_true, false_iff]
    rintro ⟨-, h3, h4, -⟩
    rcases h with h | h | h | h
    · linarith
    · linarith
    · linarith [h.2]
    · linarith [h.2]
  rename_i hc2
  have e3 : 0 ≤ rnd (a.y - r.minY) := by
    by_contra hn
    exact hc2 (Or.inr (Or.inr (Or.inl ⟨trivial, not_le.mp hn⟩)))
  have e4 : 0 ≤ rnd (r.maxYR rnd - a.y) := by
    by_contra hn
    exact hc2 (Or.inr (Or.inr (Or.inr ⟨trivial, not_le.mp hn⟩)))
  have hne : -D ≠ 0 := neg_ne_zero.mpr hD0.ne'
  have hneg : -D < 0 := by linarith
  simp only [hne, hneg, ne_eq, not_true_eq_false, not_false_eq_true, if_true, if_false, List.cons_append, List.nil_append]
  split
  · rename_i h
    rw [fold3_le] at h
    simp only [Option.isSome_none, Bool.false_eq_true, false_iff]
    rintro ⟨-, -, -, h5⟩
    exact h h5
  · rename_i h
    rw [fold3_le, not_not] at h
    simp only [Option.isSome_some, true_iff]
    exact ⟨hc1, e3, e4, h⟩

/-- Clipping a vertical segment, as computed. -/
theorem intersectsLineR_v (rnd : Rat → Rat) (h0 : rnd 0 = 0) (r : Rect) (a b : Point) (hx : a.x = b.x) (D : Rat)
    (hD : rnd (b.y - a.y) = D) (hD0 : D ≠ 0) (u v : Rat)
    (huv : (0 < D ∧ u = rnd (rnd (a.y - r.minY) / -D) ∧ v = rnd (rnd (r.maxYR rnd - a.y) / D)) ∨
      (D < 0 ∧ u = rnd (rnd (r.maxYR rnd - a.y) / D) ∧ v = rnd (rnd (a.y - r.minY) / -D))) :
    r.intersectsLineR rnd a b = true ↔
      ¬ (a.x > r.minX ∧ rnd (a.x + 0) < r.maxXR rnd ∧ a.y > r.minY ∧ rnd (a.y + D) < r.maxYR rnd) ∧
      0 ≤ rnd (a.x - r.minX) ∧ 0 ≤ rnd (r.maxXR rnd - a.x) ∧ u ≤ 1 ∧ 0 ≤ v ∧ u ≤ v := by
  have hinit : (if b.x < a.x then (b.x, b.y, rnd (a.x - b.x), rnd (a.y - b.y))
      else (a.x, a.y, rnd (b.x - a.x), rnd (b.y - a.y))) = (a.x, a.y, (0 : Rat), D) := by
    rw [if_neg (by rw [hx]; exact lt_irrefl _), hD, hx, sub_self, h0]
  unfold Rect.intersectsLineR Rect.intersectedLineR
  simp only [hinit, neg_zero, neg_neg]
  split
  · rename_i h
    simp only [Option.isSome_none, Bool.false_eq_true, false_iff]
    exact fun hh => hh.1 h
  rename_i hc1
  split
  · rename_i h
    simp only [Option.isSome_none, Bool.false_eq_true, false_iff]
    rintro ⟨-, h3, h4, -⟩
    rcases h with h | h | h | h
    · linarith [h.2]
    · linarith [h.2]
    · exact hD0 (by linarith [h.1])
    · exact hD0 (by linarith [h.1])
  rename_i hc2
  have e3 : 0 ≤ rnd (a.x - r.minX) := by
    by_contra hn
    exact hc2 (Or.inl ⟨trivial, not_le.mp hn⟩)
  have e4 : 0 ≤ rnd (r.maxXR rnd - a.x) := by
    by_contra hn
    exact hc2 (Or.inr (Or.inl ⟨trivial, not_le.mp hn⟩))
  have hne : -D ≠ 0 := neg_ne_zero.mpr hD0
  rcases huv with ⟨hp, hu, hv⟩ | ⟨hp, hu, hv⟩
  · have hneg : -D < 0 := by linarith
    simp only [hne, hneg, ne_eq, not_true_eq_false, not_false_eq_true, if_true, if_false, List.cons_append, List.nil_append,
      ← hu, ← hv]
    split
    · rename_i h
      rw [fold3_le] at h
      simp only [Option.isSome_none, Bool.false_eq_true, false_iff]
      rintro ⟨-, -, -, h5⟩
      exact h h5
    · rename_i h
      rw [fold3_le, not_not] at h
      simp only [Option.isSome_some, true_iff]
      exact ⟨hc1, e3, e4, h⟩
  · have hneg : ¬ -D < 0 := by linarith
    simp only [hne, hneg, ne_eq, not_true_eq_false, not_false_eq_true, if_true, if_false, List.cons_append, List.nil_append,
      ← hu, ← hv]
    split
    · rename_i h
      rw [fold3_le] at h
      simp only [Option.isSome_none, Bool.false_eq_true, false_iff]
      rintro ⟨-, -, -, h5⟩
      exact h h5
    · rename_i h
      rw [fold3_le, not_not] at h
      simp only [Option.isSome_some, true_iff]
      exact ⟨hc1, e3, e4, h⟩

/-! ## Quotients -/

section
variable {rnd sq : Rat → Rat} (H : Rounding rnd sq)
include H

theorem Rounding.zero : rnd 0 = 0 := H.exact 0 isF32_zero
theorem Rounding.one : rnd 1 = 1 := H.exact 1 isF32_one

omit H in
theorem small_abs {q : Rat} (h : |q| ≤ 2 ^ 60) : |q| ≤ f32Max := by
  refine h.trans ?_; unfold f32Max; norm_num

/-- Comparing a quotient of grid distances with 1 and with 0. -/
theorem Rounding.quot {p d : Rat} (hp : ∃ n : Int, |n| ≤ 2 ^ 23 ∧ p = (n : Rat) / 2) (hd : ∃ n : Int, |n| ≤ 2 ^ 23 ∧ d = (n : Rat) / 2)
    (hd0 : 0 < d) : (rnd (p / d) ≤ 1 ↔ p / d ≤ 1) ∧ (0 ≤ rnd (p / d) ↔ 0 ≤ p / d) ∧ |p / d| ≤ f32Max := by
  obtain ⟨n, hn, rfl⟩ := hp
  obtain ⟨m, hm, rfl⟩ := hd
  have hm0 : (0 : Rat) < m := by linarith
  have hm1 : 0 < m := by exact_mod_cast hm0
  have hm1' : (1 : Rat) ≤ m := by exact_mod_cast hm1
  have hm2 : (m : Rat) ≤ 2 ^ 23 := by
    have : m ≤ 2 ^ 23 := (le_abs_self m).trans hm
    exact_mod_cast this
  have hn2 : |(n : Rat)| ≤ 2 ^ 23 := by
    have : ((|n| : Int) : Rat) ≤ ((2 ^ 23 : Int) : Rat) := by exact_mod_cast hn
    rw [Int.cast_abs] at this
    push_cast at this
    norm_num at this ⊢
    exact this
  have e : (n : Rat) / 2 / ((m : Rat) / 2) = n / m := by field_simp
  rw [e]
  have habs : |(n : Rat) / m| ≤ f32Max := by
    apply small_abs
    rw [abs_div, abs_of_pos hm0, div_le_iff₀ hm0]
    nlinarith
  have a1 : |(1 : Rat)| ≤ f32Max := small_abs (by norm_num)
  have a0 : |(0 : Rat)| ≤ f32Max := small_abs (by norm_num)
  refine ⟨⟨?_, ?_⟩, ⟨?_, ?_⟩, habs⟩
  · intro h
    by_contra hc
    rw [not_le, lt_div_iff₀ hm0, one_mul] at hc
    have hc : (m : Rat) + 1 ≤ n := by
      have : m < n := by exact_mod_cast hc
      exact_mod_cast this
    have hF : IsF32 (1 + 2 ^ (-23 : Int)) := ⟨2 ^ 23 + 1, -23, by norm_num, by norm_num, by norm_num, by norm_num⟩
    have hge : 1 + 2 ^ (-23 : Int) ≤ (n : Rat) / m := by
      rw [le_div_iff₀ hm0]
      norm_num
      nlinarith
    have := H.mono _ _ (small_abs (by norm_num)) habs hge
    rw [H.exact _ hF] at this
    have : (0 : Rat) < 2 ^ (-23 : Int) := two_zpow_pos _
    linarith
  · intro h
    rw [← H.one]
    exact H.mono _ _ habs a1 h
  · intro h
    by_contra hc
    rw [not_le, div_lt_iff₀ hm0, zero_mul] at hc
    have hc : (n : Rat) + 1 ≤ 0 := by
      have : n < 0 := by exact_mod_cast hc
      exact_mod_cast this
    have hF : IsF32 (-2 ^ (-23 : Int)) := ⟨-1, -23, by norm_num, by norm_num, by norm_num, by norm_num⟩
    have hge : (n : Rat) / m ≤ -2 ^ (-23 : Int) := by
      rw [div_le_iff₀ hm0]
      norm_num
      nlinarith
    have := H.mono _ _ habs (small_abs (by norm_num)) hge
    rw [H.exact _ hF] at this
    have : (0 : Rat) < 2 ^ (-23 : Int) := two_zpow_pos _
    linarith
  · intro h
    rw [← H.zero]
    exact H.mono _ _ a0 habs h

/-- A rectangle on the grid. -/
structure GridRect (r : Rect) : Prop where
  minX : Coord r.minX
  maxX : Coord r.maxX
  minY : Coord r.minY
  maxY : Coord r.maxY
  hx : r.minX ≤ r.maxX
  hy : r.minY ≤ r.maxY

theorem GridRect.maxXR {r : Rect} (h : GridRect r) : r.maxXR rnd = r.maxX := H.exact _ h.maxX.f32
theorem GridRect.maxYR {r : Rect} (h : GridRect r) : r.maxYR rnd = r.maxY := H.exact _ h.maxY.f32

/-- Segments of the grid parallel to an axis. -/
theorem intersectsLineR_grid {r : Rect} (hr : GridRect r) {a b : Point} (hax : Coord a.x) (hay : Coord a.y) (hbx : Coord b.x)
    (hby : Coord b.y) (hab : (a.x = b.x ∧ a.y ≠ b.y) ∨ (a.y = b.y ∧ a.x ≠ b.x)) :
    r.intersectsLineR rnd a b = r.intersectsLine a b := by
  rw [Bool.eq_iff_iff]
  have hid : r.intersectsLine a b = r.intersectsLineR id a b := rfl
  rw [hid]
  rcases hab with ⟨hx, hy⟩ | ⟨hy, hx⟩
  · have hD := H.exact _ (hby.sub_f32 hay)
    have hD0 : b.y - a.y ≠ 0 := fun h => hy (by linarith)
    rcases lt_or_gt_of_ne hD0 with hneg | hpos
    · rw [intersectsLineR_v rnd H.zero r a b hx _ hD hD0 _ _ (Or.inr ⟨hneg, rfl, rfl⟩),
        intersectsLineR_v id rfl r a b hx (b.y - a.y) rfl hD0 _ _ (Or.inr ⟨hneg, rfl, rfl⟩)]
      have e1 : r.maxXR id = r.maxX := rfl
      have e2 : r.maxYR id = r.maxY := rfl
      rw [hr.maxXR H, hr.maxYR H, e1, e2]
      simp only [id, add_zero, add_sub_cancel, H.exact _ hax.f32, H.exact _ hby.f32, H.exact _ (hax.sub_f32 hr.minX),
        H.exact _ (hr.maxX.sub_f32 hax), H.exact _ (hay.sub_f32 hr.minY), H.exact _ (hr.maxY.sub_f32 hay)]
      have q1 := H.quot (hay.sub hr.maxY) (hay.sub hby) (by linarith)
      have q2 := H.quot (hay.sub hr.minY) (hay.sub hby) (by linarith)
      have f1 : (r.maxY - a.y) / (b.y - a.y) = (a.y - r.maxY) / (a.y - b.y) := by
        rw [← neg_div_neg_eq]; congr 1 <;> ring
      have f2 : (a.y - r.minY) / -(b.y - a.y) = (a.y - r.minY) / (a.y - b.y) := by congr 1; ring
      rw [f1, f2, q1.1, q2.2.1]
      have hm : (a.y - r.maxY) / (a.y - b.y) ≤ (a.y - r.minY) / (a.y - b.y) :=
        div_le_div_of_nonneg_right (by linarith [hr.hy]) (by linarith)
      have hm' := H.mono _ _ q1.2.2 q2.2.2 hm
      simp only [hm, hm', and_true]
    · rw [intersectsLineR_v rnd H.zero r a b hx _ hD hD0 _ _ (Or.inl ⟨hpos, rfl, rfl⟩),
        intersectsLineR_v id rfl r a b hx (b.y - a.y) rfl hD0 _ _ (Or.inl ⟨hpos, rfl, rfl⟩)]
      have e1 : r.maxXR id = r.maxX := rfl
      have e2 : r.maxYR id = r.maxY := rfl
      rw [hr.maxXR H, hr.maxYR H, e1, e2]
      simp only [id, add_zero, add_sub_cancel, H.exact _ hax.f32, H.exact _ hby.f32, H.exact _ (hax.sub_f32 hr.minX),
        H.exact _ (hr.maxX.sub_f32 hax), H.exact _ (hay.sub_f32 hr.minY), H.exact _ (hr.maxY.sub_f32 hay)]
      have q1 := H.quot (hr.minY.sub hay) (hby.sub hay) (by linarith)
      have q2 := H.quot (hr.maxY.sub hay) (hby.sub hay) (by linarith)
      have f1 : (a.y - r.minY) / -(b.y - a.y) = (r.minY - a.y) / (b.y - a.y) := by
        rw [← neg_div_neg_eq]; congr 1 <;> ring
      rw [f1, q1.1, q2.2.1]
      have hm : (r.minY - a.y) / (b.y - a.y) ≤ (r.maxY - a.y) / (b.y - a.y) :=
        div_le_div_of_nonneg_right (by linarith [hr.hy]) (by linarith)
      have hm' := H.mono _ _ q1.2.2 q2.2.2 hm
      simp only [hm, hm', and_true]
  · have main : ∀ x X : Rat, Coord x → Coord X → x < X →
        ((b.x < a.x ∧ x = b.x ∧ X = a.x) ∨ (¬ b.x < a.x ∧ x = a.x ∧ X = b.x)) →
        (r.intersectsLineR rnd a b = true ↔ r.intersectsLineR id a b = true) := by
      intro x X hxc hXc hlt hcase
      rw [intersectsLineR_h rnd H.zero r a b hy x X _ hcase (H.exact _ (hXc.sub_f32 hxc)) (by linarith),
        intersectsLineR_h id rfl r a b hy x X (X - x) hcase rfl (by linarith)]
      have e1 : r.maxXR id = r.maxX := rfl
      have e2 : r.maxYR id = r.maxY := rfl
      rw [hr.maxXR H, hr.maxYR H, e1, e2]
      simp only [id, add_zero, add_sub_cancel, H.exact _ hay.f32, H.exact _ hXc.f32, H.exact _ (hxc.sub_f32 hr.minX),
        H.exact _ (hr.maxX.sub_f32 hxc), H.exact _ (hay.sub_f32 hr.minY), H.exact _ (hr.maxY.sub_f32 hay)]
      have q1 := H.quot (hr.minX.sub hxc) (hXc.sub hxc) (by linarith)
      have q2 := H.quot (hr.maxX.sub hxc) (hXc.sub hxc) (by linarith)
      have f1 : (x - r.minX) / -(X - x) = (r.minX - x) / (X - x) := by
        rw [← neg_div_neg_eq]; congr 1 <;> ring
      rw [f1, q1.1, q2.2.1]
      have hm : (r.minX - x) / (X - x) ≤ (r.maxX - x) / (X - x) :=
        div_le_div_of_nonneg_right (by linarith [hr.hx]) (by linarith)
      have hm' := H.mono _ _ q1.2.2 q2.2.2 hm
      simp only [hm, hm', and_true]
    rcases lt_or_gt_of_ne hx with h | h
    · exact main a.x b.x hax hbx h (Or.inr ⟨by linarith, rfl, rfl⟩)
    · exact main b.x a.x hbx hax h (Or.inl ⟨h, rfl, rfl⟩)

/-! ## Rays -/

omit H in
theorem f32Min_eq : f32Min = -f32Max := rfl

/-- Rays to the four sides, for rectangles beyond the start. -/
theorem intersectsLineR_left {r : Rect} (hr : GridRect r) {c : Point} (hx : Coord c.x) (hy : Coord c.y) (hb : r.maxX < c.x) :
    r.intersectsLineR rnd c ⟨f32Min, c.y⟩ = r.intersectsLine c ⟨f32Min, c.y⟩ := by
  rw [Bool.eq_iff_iff]
  have hid : r.intersectsLine c ⟨f32Min, c.y⟩ = r.intersectsLineR id c ⟨f32Min, c.y⟩ := rfl
  rw [hid]
  have M : (2 : Rat) ^ 30 ≤ f32Max := by unfold f32Max; norm_num
  obtain ⟨x1, x2⟩ := hx.bounds
  obtain ⟨l1, l2⟩ := hr.minX.bounds
  obtain ⟨m1, m2⟩ := hr.maxX.bounds
  have hl := hr.hx
  have hD : rnd (c.x - f32Min) = f32Max := by
    rw [f32Min_eq, sub_neg_eq_add, add_comm]; exact (H.big _ (abs_le.mpr ⟨by linarith, x2⟩)).1
  have hs : f32Min < c.x := by rw [f32Min_eq]; linarith
  rw [intersectsLineR_h rnd H.zero r c ⟨f32Min, c.y⟩ rfl f32Min c.x _ (Or.inl ⟨hs, rfl, rfl⟩) hD (by linarith),
    intersectsLineR_h id rfl r c ⟨f32Min, c.y⟩ rfl f32Min c.x (c.x - f32Min) (Or.inl ⟨hs, rfl, rfl⟩) rfl (by linarith)]
  have e1 : r.maxXR id = r.maxX := rfl
  have e2 : r.maxYR id = r.maxY := rfl
  rw [hr.maxXR H, hr.maxYR H, e1, e2]
  have n1 : ¬ (f32Min > r.minX) := by rw [f32Min_eq]; linarith
  have g1 : rnd (f32Min - r.minX) = -f32Max := by
    rw [f32Min_eq, sub_eq_add_neg]; exact (H.big _ (abs_le.mpr ⟨by linarith, by linarith⟩)).2
  have g2 : rnd (r.maxX - f32Min) = f32Max := by
    rw [f32Min_eq, sub_neg_eq_add, add_comm]; exact (H.big _ (abs_le.mpr ⟨by linarith, m2⟩)).1
  simp only [n1, false_and, not_false_eq_true, true_and, id, H.exact _ (hy.sub_f32 hr.minY), H.exact _ (hr.maxY.sub_f32 hy), g1, g2]
  have d1 : -f32Max / -f32Max = 1 := div_self (by linarith)
  have d2 : f32Max / f32Max = 1 := div_self (by linarith)
  rw [d1, d2, H.one]
  have hpos : 0 < c.x - f32Min := by linarith
  have k1 : (f32Min - r.minX) / -(c.x - f32Min) ≤ 1 := by
    rw [← neg_div_neg_eq, neg_neg, div_le_iff₀ hpos]; linarith
  have k2 : 0 ≤ (r.maxX - f32Min) / (c.x - f32Min) := div_nonneg (by rw [f32Min_eq]; linarith) hpos.le
  have k3 : (f32Min - r.minX) / -(c.x - f32Min) ≤ (r.maxX - f32Min) / (c.x - f32Min) := by
    rw [← neg_div_neg_eq, neg_neg]; exact div_le_div_of_nonneg_right (by linarith) hpos.le
  simp only [k1, k2, k3, le_refl, zero_le_one]

omit H in
theorem quot_abs {p d : Rat} (hp : |p| ≤ 2 ^ 22) (hd : 1 ≤ d) : |p / d| ≤ f32Max := by
  apply small_abs
  rw [abs_div, abs_of_pos (by linarith : (0 : Rat) < d), div_le_iff₀ (by linarith)]
  have := abs_nonneg p
  nlinarith

/-- Quotients of two ordered grid distances by a large number. -/
theorem Rounding.tiny {p q d : Rat} (hp : 0 ≤ p) (hpq : p ≤ q) (hq : q ≤ 2 ^ 22) (hd : 2 ^ 22 ≤ d) :
    (rnd (p / d) ≤ 1 ∧ 0 ≤ rnd (q / d) ∧ rnd (p / d) ≤ rnd (q / d)) ∧ (p / d ≤ 1 ∧ 0 ≤ q / d ∧ p / d ≤ q / d) := by
  have hd0 : 0 < d := by linarith
  have b1 : |p / d| ≤ f32Max := quot_abs (abs_le.mpr ⟨by linarith, by linarith⟩) (by linarith)
  have b2 : |q / d| ≤ f32Max := quot_abs (abs_le.mpr ⟨by linarith, by linarith⟩) (by linarith)
  have k1 : p / d ≤ 1 := by rw [div_le_iff₀ hd0]; linarith
  have k2 : 0 ≤ q / d := div_nonneg (by linarith) hd0.le
  have k3 : p / d ≤ q / d := div_le_div_of_nonneg_right hpq hd0.le
  refine ⟨⟨?_, ?_, H.mono _ _ b1 b2 k3⟩, k1, k2, k3⟩
  · rw [← H.one]; exact H.mono _ _ b1 (small_abs (by norm_num)) k1
  · rw [← H.zero]; exact H.mono _ _ (small_abs (by norm_num)) b2 k2

theorem intersectsLineR_right {r : Rect} (hr : GridRect r) {c : Point} (hx : Coord c.x) (hy : Coord c.y) (hb : r.minX > c.x) :
    r.intersectsLineR rnd c ⟨f32Max, c.y⟩ = r.intersectsLine c ⟨f32Max, c.y⟩ := by
  rw [Bool.eq_iff_iff]
  have hid : r.intersectsLine c ⟨f32Max, c.y⟩ = r.intersectsLineR id c ⟨f32Max, c.y⟩ := rfl
  rw [hid]
  have M : (2 : Rat) ^ 30 ≤ f32Max := by unfold f32Max; norm_num
  obtain ⟨x1, x2⟩ := hx.bounds
  obtain ⟨l1, l2⟩ := hr.minX.bounds
  obtain ⟨m1, m2⟩ := hr.maxX.bounds
  have hl := hr.hx
  have hD : rnd (f32Max - c.x) = f32Max := by
    rw [sub_eq_add_neg]; exact (H.big _ (abs_le.mpr ⟨by linarith, by linarith⟩)).1
  have hs : ¬ f32Max < c.x := by linarith
  rw [intersectsLineR_h rnd H.zero r c ⟨f32Max, c.y⟩ rfl c.x f32Max _ (Or.inr ⟨hs, rfl, rfl⟩) hD (by linarith),
    intersectsLineR_h id rfl r c ⟨f32Max, c.y⟩ rfl c.x f32Max (f32Max - c.x) (Or.inr ⟨hs, rfl, rfl⟩) rfl (by linarith)]
  have e1 : r.maxXR id = r.maxX := rfl
  have e2 : r.maxYR id = r.maxY := rfl
  rw [hr.maxXR H, hr.maxYR H, e1, e2]
  have n1 : ¬ (c.x > r.minX) := by linarith
  simp only [n1, false_and, not_false_eq_true, true_and, id, H.exact _ (hy.sub_f32 hr.minY), H.exact _ (hr.maxY.sub_f32 hy),
    H.exact _ (hx.sub_f32 hr.minX), H.exact _ (hr.maxX.sub_f32 hx)]
  have f1 : ∀ d : Rat, (c.x - r.minX) / -d = (r.minX - c.x) / d := by
    intro d; rw [← neg_div_neg_eq]; congr 1 <;> ring
  rw [f1, f1]
  obtain ⟨t1, -⟩ := H.tiny (p := r.minX - c.x) (q := r.maxX - c.x) (d := f32Max) (by linarith) (by linarith) (by linarith) (by linarith)
  obtain ⟨-, t2⟩ := H.tiny (p := r.minX - c.x) (q := r.maxX - c.x) (d := f32Max - c.x) (by linarith) (by linarith) (by linarith) (by linarith)
  simp only [t1, t2, and_self]

theorem intersectsLineR_up {r : Rect} (hr : GridRect r) {c : Point} (hx : Coord c.x) (hy : Coord c.y) (hb : r.minY > c.y) :
    r.intersectsLineR rnd c ⟨c.x, f32Max⟩ = r.intersectsLine c ⟨c.x, f32Max⟩ := by
  rw [Bool.eq_iff_iff]
  have hid : r.intersectsLine c ⟨c.x, f32Max⟩ = r.intersectsLineR id c ⟨c.x, f32Max⟩ := rfl
  rw [hid]
  have M : (2 : Rat) ^ 30 ≤ f32Max := by unfold f32Max; norm_num
  obtain ⟨x1, x2⟩ := hy.bounds
  obtain ⟨l1, l2⟩ := hr.minY.bounds
  obtain ⟨m1, m2⟩ := hr.maxY.bounds
  have hl := hr.hy
  have hD : rnd (f32Max - c.y) = f32Max := by
    rw [sub_eq_add_neg]; exact (H.big _ (abs_le.mpr ⟨by linarith, by linarith⟩)).1
  rw [intersectsLineR_v rnd H.zero r c ⟨c.x, f32Max⟩ rfl _ hD (by linarith) _ _ (Or.inl ⟨by linarith, rfl, rfl⟩),
    intersectsLineR_v id rfl r c ⟨c.x, f32Max⟩ rfl (f32Max - c.y) rfl (by linarith) _ _ (Or.inl ⟨by linarith, rfl, rfl⟩)]
  have e1 : r.maxXR id = r.maxX := rfl
  have e2 : r.maxYR id = r.maxY := rfl
  rw [hr.maxXR H, hr.maxYR H, e1, e2]
  have n1 : ¬ (c.y > r.minY) := by linarith
  simp only [n1, false_and, and_false, not_false_eq_true, true_and, id, H.exact _ (hx.sub_f32 hr.minX), H.exact _ (hr.maxX.sub_f32 hx),
    H.exact _ (hy.sub_f32 hr.minY), H.exact _ (hr.maxY.sub_f32 hy)]
  have f1 : ∀ d : Rat, (c.y - r.minY) / -d = (r.minY - c.y) / d := by
    intro d; rw [← neg_div_neg_eq]; congr 1 <;> ring
  rw [f1, f1]
  obtain ⟨t1, -⟩ := H.tiny (p := r.minY - c.y) (q := r.maxY - c.y) (d := f32Max) (by linarith) (by linarith) (by linarith) (by linarith)
  obtain ⟨-, t2⟩ := H.tiny (p := r.minY - c.y) (q := r.maxY - c.y) (d := f32Max - c.y) (by linarith) (by linarith) (by linarith) (by linarith)
  simp only [t1, t2, and_self]

theorem intersectsLineR_down {r : Rect} (hr : GridRect r) {c : Point} (hx : Coord c.x) (hy : Coord c.y) (hb : r.maxY < c.y) :
    r.intersectsLineR rnd c ⟨c.x, f32Min⟩ = r.intersectsLine c ⟨c.x, f32Min⟩ := by
  rw [Bool.eq_iff_iff]
  have hid : r.intersectsLine c ⟨c.x, f32Min⟩ = r.intersectsLineR id c ⟨c.x, f32Min⟩ := rfl
  rw [hid]
  have M : (2 : Rat) ^ 30 ≤ f32Max := by unfold f32Max; norm_num
  obtain ⟨x1, x2⟩ := hy.bounds
  obtain ⟨l1, l2⟩ := hr.minY.bounds
  obtain ⟨m1, m2⟩ := hr.maxY.bounds
  have hl := hr.hy
  have hD : rnd (f32Min - c.y) = -f32Max := by
    rw [f32Min_eq, sub_eq_add_neg]; exact (H.big _ (abs_le.mpr ⟨by linarith, by linarith⟩)).2
  have hneg : f32Min - c.y < 0 := by rw [f32Min_eq]; linarith
  rw [intersectsLineR_v rnd H.zero r c ⟨c.x, f32Min⟩ rfl _ hD (by linarith) _ _ (Or.inr ⟨by linarith, rfl, rfl⟩),
    intersectsLineR_v id rfl r c ⟨c.x, f32Min⟩ rfl (f32Min - c.y) rfl hneg.ne _ _ (Or.inr ⟨hneg, rfl, rfl⟩)]
  have e1 : r.maxXR id = r.maxX := rfl
  have e2 : r.maxYR id = r.maxY := rfl
  rw [hr.maxXR H, hr.maxYR H, e1, e2]
  have n1 : c.y > r.minY := by linarith
  have n2 : rnd (c.y + -f32Max) < r.maxY := by
    rw [add_comm, (H.big c.y (abs_le.mpr ⟨by linarith, by linarith⟩)).2]; linarith
  have n3 : c.y + (f32Min - c.y) < r.maxY := by rw [f32Min_eq]; linarith
  simp only [n1, n2, n3, and_true, id, H.exact _ (hx.sub_f32 hr.minX), H.exact _ (hr.maxX.sub_f32 hx),
    H.exact _ (hy.sub_f32 hr.minY), H.exact _ (hr.maxY.sub_f32 hy), add_zero, H.exact _ hx.f32]
  have f1 : ∀ d : Rat, (r.maxY - c.y) / d = (c.y - r.maxY) / -d := by
    intro d; rw [← neg_div_neg_eq]; congr 1; ring
  rw [f1, f1]
  obtain ⟨t1, -⟩ := H.tiny (p := c.y - r.maxY) (q := c.y - r.minY) (d := - -f32Max) (by linarith) (by linarith) (by linarith) (by linarith)
  obtain ⟨-, t2⟩ := H.tiny (p := c.y - r.maxY) (q := c.y - r.minY) (d := -(f32Min - c.y)) (by linarith) (by linarith) (by linarith)
    (by rw [f32Min_eq]; linarith)
  simp only [t1, t2, and_self]

end

end Seiren
