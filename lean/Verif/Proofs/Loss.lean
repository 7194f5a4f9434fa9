import Mathlib.Order.Interval.Finset.Nat
import Mathlib.Data.Int.Interval
import Mathlib.Data.Rat.Floor
import Mathlib.Tactic.Linarith
import Mathlib.Tactic.Ring
/-! # What is lost by rounding down each piece of a path

Heights are whole numbers of a given finite set, or lie half-way between whole numbers. Along a path the lengths of the pieces are
rounded down, and the total loss is bounded by the size of the set. -/

namespace Seiren
namespace Loss

/-- A height of the set `B`, or half-way between whole numbers. -/
def Level (B : Finset Int) (y : Rat) : Prop := (∃ i ∈ B, y = ((i : Int) : Rat)) ∨ ∃ i : Int, y = i + 1 / 2

open Classical in
/-- The height, less one for each height of `B` passed on the way up to it; a height of `B` itself counts half. -/
noncomputable def height (B : Finset Int) (y : Rat) : Rat :=
  y - ((B.filter fun i : Int => (i : Rat) < y).card : Rat) - (if ∃ i ∈ B, y = ((i : Int) : Rat) then 1 / 2 else 0)

theorem half_not {B : Finset Int} {y : Rat} {i : Int} (h : y = i + 1 / 2) : ¬ ∃ j ∈ B, y = ((j : Int) : Rat) := by
  rintro ⟨j, -, hj⟩
  rw [h] at hj
  have e : ((2 * i + 1 : Int) : Rat) = ((2 * j : Int) : Rat) := by push_cast; linarith
  have : 2 * i + 1 = 2 * j := by exact_mod_cast e
  omega

theorem count_split (B : Finset Int) {u v : Rat} (h : u ≤ v) :
    (B.filter fun i : Int => (i : Rat) < v).card = (B.filter fun i : Int => (i : Rat) < u).card + (B.filter fun i : Int => u ≤ (i : Rat) ∧ (i : Rat) < v).card := by
  rw [← Finset.card_union_of_disjoint]
  · congr 1
    ext i
    simp only [Finset.mem_filter, Finset.mem_union]
    constructor
    · rintro ⟨h1, h2⟩
      rcases lt_or_ge (i : Rat) u with h3 | h3
      · exact .inl ⟨h1, h3⟩
      · exact .inr ⟨h1, h3, h2⟩
    · rintro (⟨h1, h2⟩ | ⟨h1, -, h2⟩)
      · exact ⟨h1, lt_of_lt_of_le h2 h⟩
      · exact ⟨h1, h2⟩
  · rw [Finset.disjoint_left]
    intro i hi hj
    simp only [Finset.mem_filter] at hi hj
    linarith [hi.2, hj.2.1]

theorem count_le (B : Finset Int) {u v : Rat} (h : u ≤ v) : ((B.filter fun i : Int => u ≤ (i : Rat) ∧ (i : Rat) < v).card : Rat) ≤ v - u + 1 := by
  have hsub : (B.filter fun i : Int => u ≤ (i : Rat) ∧ (i : Rat) < v) ⊆ Finset.Ico ⌈u⌉ ⌈v⌉ := by
    intro i hi
    simp only [Finset.mem_filter] at hi
    rw [Finset.mem_Ico]
    exact ⟨Int.ceil_le.mpr hi.2.1, Int.lt_ceil.mpr hi.2.2⟩
  have hc := Finset.card_le_card hsub
  rw [Int.card_Ico] at hc
  have h1 : ((⌈v⌉ - ⌈u⌉).toNat : Rat) = (⌈v⌉ : Rat) - ⌈u⌉ := by
    have : 0 ≤ ⌈v⌉ - ⌈u⌉ := by have := Int.ceil_mono h; omega
    have e : (((⌈v⌉ - ⌈u⌉).toNat : Int) : Rat) = ((⌈v⌉ - ⌈u⌉ : Int) : Rat) := by rw [Int.toNat_of_nonneg this]
    push_cast at e
    exact e
  have hc' : ((B.filter fun i : Int => u ≤ (i : Rat) ∧ (i : Rat) < v).card : Rat) ≤ ((⌈v⌉ - ⌈u⌉).toNat : Rat) := by exact_mod_cast hc
  rw [h1] at hc'
  have := Int.ceil_lt_add_one v
  have := Int.le_ceil u
  linarith

open Classical in
theorem height_diff (B : Finset Int) {u v : Rat} (h : u ≤ v) : height B v - height B u =
    v - u - ((B.filter fun i : Int => u ≤ (i : Rat) ∧ (i : Rat) < v).card : Rat) -
      (if ∃ i ∈ B, v = ((i : Int) : Rat) then 1 / 2 else 0) + (if ∃ i ∈ B, u = ((i : Int) : Rat) then 1 / 2 else 0) := by
  simp only [height, count_split B h]
  push_cast
  ring

/-- The difference is at most what is left after rounding. -/
theorem height_floor {B : Finset Int} {u v : Rat} (hu : Level B u) (hv : Level B v) (huv : u + 5 / 2 ≤ v) :
    |height B v - height B u| ≤ ((v - u).floor : Rat) := by
  classical
  have hle : u ≤ v := by linarith
  rw [abs_le, height_diff B hle]
  have hcnt := count_le B hle
  have h2 : (2 : Int) ≤ (v - u).floor := Rat.le_floor_iff.mpr (by push_cast; linarith)
  have h2' : (2 : Rat) ≤ ((v - u).floor : Rat) := by exact_mod_cast h2
  have ge : ∀ z : Int, (z : Rat) ≤ v - u → (z : Rat) ≤ ((v - u).floor : Rat) := fun z hz => by exact_mod_cast Rat.le_floor_iff.mpr hz
  have h0 : (0 : Rat) ≤ ((B.filter fun i : Int => u ≤ (i : Rat) ∧ (i : Rat) < v).card : Rat) := Nat.cast_nonneg _
  constructor
  · split <;> split <;> linarith
  · rcases hu with ⟨i, hi, rfl⟩ | ⟨i, hi⟩
    · have hpos : (1 : Rat) ≤ ((B.filter fun j : Int => (i : Rat) ≤ (j : Rat) ∧ (j : Rat) < v).card : Rat) := by
        have : i ∈ B.filter fun j : Int => (i : Rat) ≤ (j : Rat) ∧ (j : Rat) < v :=
          Finset.mem_filter.mpr ⟨hi, le_refl _, by linarith⟩
        exact_mod_cast Finset.card_pos.mpr ⟨i, this⟩
      rw [if_pos (⟨i, hi, rfl⟩ : ∃ j ∈ B, (i : Rat) = ((j : Int) : Rat))]
      rcases hv with ⟨j, hj, rfl⟩ | ⟨j, hj⟩
      · have := ge (j - i) (by push_cast; linarith)
        push_cast at this
        split <;> linarith
      · rw [if_neg (half_not hj)]
        have := ge (j - i) (by push_cast; linarith)
        push_cast at this
        linarith
    · rw [if_neg (half_not hi)]
      rcases hv with ⟨j, hj, rfl⟩ | ⟨j, hj⟩
      · rw [if_pos ⟨j, hj, rfl⟩]
        have := ge (j - i - 1) (by push_cast; linarith)
        push_cast at this
        linarith
      · rw [if_neg (half_not hj)]
        have := ge (j - i) (by push_cast; linarith)
        push_cast at this
        linarith

/-- Not more than the size of the set is lost. -/
theorem height_lower (B : Finset Int) (u v : Rat) : |v - u| - ((B.card : Rat) + 1 / 2) ≤ |height B v - height B u| := by
  classical
  have key : ∀ u v : Rat, u ≤ v → |v - u| - ((B.card : Rat) + 1 / 2) ≤ |height B v - height B u| := by
    intro u v h
    rw [height_diff B h]
    have hc : ((B.filter fun i : Int => u ≤ (i : Rat) ∧ (i : Rat) < v).card : Rat) ≤ B.card := by exact_mod_cast Finset.card_filter_le _ _
    rw [abs_of_nonneg (by linarith : 0 ≤ v - u)]
    refine le_trans ?_ (le_abs_self _)
    split <;> split <;> linarith
  rcases le_total u v with h | h
  · exact key u v h
  · rw [abs_sub_comm v, abs_sub_comm (height B v)]
    exact key v u h

/-- The nearest height between `lo` and `hi`. -/
def clip (lo hi y : Rat) : Rat := max lo (min hi y)

theorem clip_mem {lo hi : Rat} (h : lo ≤ hi) (y : Rat) : lo ≤ clip lo hi y ∧ clip lo hi y ≤ hi :=
  ⟨le_max_left _ _, max_le h (min_le_left _ _)⟩

theorem clip_cases (lo hi y : Rat) : clip lo hi y = lo ∨ clip lo hi y = hi ∨ clip lo hi y = y := by
  unfold clip
  rcases max_choice lo (min hi y) with h | h
  · exact .inl h
  · rw [h]
    rcases min_choice hi y with h | h
    · exact .inr (.inl h)
    · exact .inr (.inr h)

theorem clip_id {lo hi y : Rat} (h1 : lo ≤ y) (h2 : y ≤ hi) : clip lo hi y = y := by
  unfold clip
  rw [min_eq_right h2, max_eq_right h1]

theorem clip_mono {lo hi y z : Rat} (h : y ≤ z) : clip lo hi y ≤ clip lo hi z :=
  max_le_max (le_refl _) (min_le_min (le_refl _) h)

theorem clip_le {lo hi y z : Rat} (h : y ≤ z) : clip lo hi z - clip lo hi y ≤ z - y := by
  have : clip lo hi z ≤ clip lo hi y + (z - y) := by
    refine max_le ?_ ?_
    · have : lo ≤ clip lo hi y := le_max_left _ _
      linarith
    · have : min hi y ≤ clip lo hi y := le_max_right _ _
      rcases le_total hi y with h1 | h1
      · rw [min_eq_left h1] at this
        have := min_le_left hi z
        linarith
      · rw [min_eq_right h1] at this
        have := min_le_right hi z
        linarith
  linarith

theorem clip_near {lo hi y : Rat} (h1 : lo ≤ y) (h2 : y ≤ hi) (z : Rat) : |clip lo hi z - y| ≤ |z - y| := by
  conv_lhs => rw [← clip_id h1 h2]
  rcases le_total y z with h | h
  · have := clip_le (lo := lo) (hi := hi) h
    have := clip_mono (lo := lo) (hi := hi) h
    rw [abs_of_nonneg (by linarith), abs_of_nonneg (by linarith)]
    assumption
  · have := clip_le (lo := lo) (hi := hi) h
    have := clip_mono (lo := lo) (hi := hi) h
    rw [abs_of_nonpos (by linarith), abs_of_nonpos (by linarith)]
    linarith

end Loss
end Seiren
