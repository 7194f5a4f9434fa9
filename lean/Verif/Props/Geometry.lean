import Verif.Proofs.Geometry
import Mathlib.Data.Nat.Sqrt
import Mathlib.Data.List.Induction
/-! # C47–C51: geometry -/

namespace Seiren
open Spec

/-! ## C47 `inset_by` -/

/-- C47, the part that holds: as long as the rectangle is not inset by more than half its size, every side moves by
the given amount, the center stays, and the size is not negative. -/
theorem C47_inset_by_partial (r : Rect) (dx dy : Rat) (hx : dx * 2 ≤ r.size.width) (hy : dy * 2 ≤ r.size.height) :
    let s := r.insetBy dx dy
    s.minX = r.minX + dx ∧ s.maxX = r.maxX - dx ∧ s.minY = r.minY + dy ∧ s.maxY = r.maxY - dy ∧
      s.center = r.center ∧ 0 ≤ s.size.width ∧ 0 ≤ s.size.height := by
  have h1 : max (r.size.width - dx * 2) 0 = r.size.width - dx * 2 := max_eq_left (by linarith)
  have h2 : max (r.size.height - dy * 2) 0 = r.size.height - dy * 2 := max_eq_left (by linarith)
  simp only [Rect.insetBy, Rect.minX, Rect.maxX, Rect.minY, Rect.maxY, Rect.center, Rect.midX, Rect.midY, h1, h2,
    Point.mk.injEq]
  refine ⟨trivial, by ring, trivial, by ring, ⟨by ring, by ring⟩, by linarith, by linarith⟩

/-- A rectangle inset by 5 and enlarged by 10 (the case of the unit test, geometry.rs:437-440). -/
example : (5 : Rat) * 2 ≤ (⟨⟨10, 20⟩, ⟨50, 50⟩⟩ : Rect).size.width ∧
    (⟨⟨10, 20⟩, ⟨50, 50⟩⟩ : Rect).insetBy 5 (-10) = ⟨⟨15, 10⟩, ⟨40, 70⟩⟩ := by decide +kernel

/-- C47 for a rectangle that is inset by more than half its width: its width is zero and its left side has moved
right by `dx`, beyond the old center. -/
theorem C47_inset_by_clamped (r : Rect) (dx dy : Rat) (hx : r.size.width < dx * 2) :
    (r.insetBy dx dy).size.width = 0 ∧ (r.insetBy dx dy).minX = r.minX + dx ∧
      r.center.x < (r.insetBy dx dy).center.x := by
  have h1 : max (r.size.width - dx * 2) 0 = 0 := max_eq_right (by linarith)
  simp only [Rect.insetBy, Rect.minX, Rect.center, Rect.midX, h1, true_and]
  linarith

example : (⟨⟨10, 20⟩, ⟨50, 50⟩⟩ : Rect).size.width < (30 : Rat) * 2 := by decide +kernel

/-- C47 does not hold without the bound: the center is not preserved although the documentation says so. -/
theorem C47_inset_by_center_refuted : ¬ ∀ (r : Rect) (dx dy : Rat), (r.insetBy dx dy).center = r.center := by
  intro h
  have := h ⟨⟨10, 20⟩, ⟨50, 50⟩⟩ 30 30
  revert this
  decide +kernel

/-- Enlarging by `m ≥ 0` gives exactly the points within distance `m` in both coordinates (used by the layout). -/
theorem C47_enlarge (r : Rect) (m : Rat) (hm : 0 ≤ m) (hw : 0 ≤ r.size.width) (hh : 0 ≤ r.size.height) (p : Point) :
    InRect (r.insetBy (-m) (-m)) p ↔
      r.minX - m ≤ p.x ∧ p.x ≤ r.maxX + m ∧ r.minY - m ≤ p.y ∧ p.y ≤ r.maxY + m := by
  have h1 : max (r.size.width - -m * 2) 0 = r.size.width + 2 * m := by rw [max_eq_left] <;> linarith
  have h2 : max (r.size.height - -m * 2) 0 = r.size.height + 2 * m := by rw [max_eq_left] <;> linarith
  simp only [InRect, Rect.insetBy, Rect.minX, Rect.maxX, Rect.minY, Rect.maxY, h1, h2]
  constructor <;> rintro ⟨a, b, c, d⟩ <;> refine ⟨?_, ?_, ?_, ?_⟩ <;> linarith

example : InRect ((⟨⟨10, 20⟩, ⟨50, 50⟩⟩ : Rect).insetBy (-40) (-40)) ⟨-30, 110⟩ := by
  unfold InRect; decide +kernel

/-! ## C48 `contains_point` -/

/-- C48, the part that holds: `contains_point` is membership in the *closed* rectangle. -/
theorem C48_contains_point_partial (r : Rect) (p : Point) : r.containsPoint p = true ↔ InRect r p := by
  simp only [Rect.containsPoint, Bool.and_eq_true, decide_eq_true_iff, ge_iff_le, and_assoc]
  rfl

/-- C48: the documentation excludes the right and bottom edges and empty rectangles; the code includes both. -/
theorem C48_contains_point_refuted :
    (∀ r : Rect, 0 ≤ r.size.width → 0 ≤ r.size.height →
      r.containsPoint ⟨r.origin.x + r.size.width, r.origin.y + r.size.height⟩ = true) ∧
    (∀ o : Point, (⟨o, ⟨0, 0⟩⟩ : Rect).containsPoint o = true) := by
  constructor
  · intro r h1 h2
    rw [C48_contains_point_partial]
    refine ⟨?_, ?_, ?_, ?_⟩ <;> simp only <;> linarith
  · intro o
    rw [C48_contains_point_partial]
    refine ⟨?_, ?_, ?_, ?_⟩ <;> simp

example : (⟨⟨10, 20⟩, ⟨50, 50⟩⟩ : Rect).containsPoint ⟨60, 70⟩ = true ∧
    (⟨⟨10, 20⟩, ⟨50, 50⟩⟩ : Rect).containsPoint ⟨60, 71⟩ = false := by decide +kernel

/-! ## C49 `intersects_line` -/

theorem meets_swap (r : Rect) (a b : Point) : Meets r a b ↔ Meets r b a := by
  have : ∀ a b, Meets r a b → Meets r b a := by
    rintro a b ⟨t, h0, h1, h⟩
    refine ⟨1 - t, by linarith, by linarith, ?_⟩
    have : lerp b a (1 - t) = lerp a b t := by
      simp only [lerp, Point.mk.injEq]; constructor <;> ring
    rwa [this]
  exact ⟨this a b, this b a⟩

/-- C49, what the code decides, for all segments.  Let `p`, `q` be the ends of the segment from left to right (for a
vertical segment: in the given order).  The code answers yes exactly if the segment meets the closed rectangle and not
(`p` is right of the left side, `q` left of the right side, `p` below the top and `q` above the bottom). -/
theorem C49_intersects_line_exact (r : Rect) (a b : Point) :
    r.intersectsLine a b = true ↔
      Meets r a b ∧
      ¬ (if b.x < a.x then r.minX < b.x ∧ a.x < r.maxX ∧ r.minY < b.y ∧ a.y < r.maxY
         else r.minX < a.x ∧ b.x < r.maxX ∧ r.minY < a.y ∧ b.y < r.maxY) := by
  have main : ∀ p q : Point, p.x ≤ q.x →
      (r.intersectsLine p q = true ↔
        Meets r p q ∧ ¬ (r.minX < p.x ∧ q.x < r.maxX ∧ r.minY < p.y ∧ q.y < r.maxY)) := by
    intro p q hx
    have h := intersectedLine_spec r p q hx
    unfold Rect.intersectsLine
    split at h
    · rename_i heq
      rw [heq]
      simp only [Option.isSome_none, Bool.false_eq_true, false_iff]
      rintro ⟨hm, hE⟩
      rcases h with h | h
      · exact hE h
      · exact h hm
    · rename_i u v heq
      rw [heq]
      simp only [Option.isSome_some, true_iff]
      obtain ⟨hE, t1, t2, h0, h12, h1, -, -, h⟩ := h
      exact ⟨⟨t1, h0, by linarith, (h t1 h0 (by linarith)).2 ⟨le_refl _, h12⟩⟩, hE⟩
  by_cases hab : b.x < a.x
  · have e : r.intersectsLine a b = r.intersectsLine b a := by
      unfold Rect.intersectsLine
      rw [intersectedLine_ordered r a b]
      simp [ordered, hab]
    rw [e, main b a (le_of_lt hab), meets_swap r a b]
    simp [hab]
  · rw [main a b (by linarith)]
    simp [hab]

/-- A segment that passes through the rectangle, and one that passes by. -/
example : (⟨⟨15, 5⟩, ⟨30, 30⟩⟩ : Rect).intersectsLine ⟨20, 30⟩ ⟨10, 5⟩ = true ∧
    (⟨⟨15, 5⟩, ⟨30, 30⟩⟩ : Rect).intersectsLine ⟨-1, 5⟩ ⟨-1, 10⟩ = false := by decide +kernel

/-- C49, the part that holds: for segments that do not go up when followed from left to right (and vertical segments
given from top to bottom) the answer is right. -/
theorem C49_intersects_line_partial (r : Rect) (a b : Point)
    (h : (a.x ≤ b.x ∧ a.y ≤ b.y) ∨ (b.x < a.x ∧ b.y ≤ a.y)) :
    r.intersectsLine a b = true ↔ Meets r a b ∧ ¬ InsideInterior r a b := by
  rw [C49_intersects_line_exact]
  apply and_congr_right
  intro _
  apply not_congr
  simp only [InsideInterior, Interior, Rect.minX, Rect.maxX, Rect.minY, Rect.maxY]
  rcases h with ⟨h1, h2⟩ | ⟨h1, h2⟩
  · have : ¬ b.x < a.x := by linarith
    simp only [this, if_false]
    constructor
    · rintro ⟨c1, c2, c3, c4⟩
      refine ⟨⟨?_, ?_, ?_, ?_⟩, ?_, ?_, ?_, ?_⟩ <;> linarith
    · rintro ⟨⟨c1, c2, c3, c4⟩, d1, d2, d3, d4⟩
      exact ⟨c1, d2, c3, d4⟩
  · simp only [h1, if_true]
    constructor
    · rintro ⟨c1, c2, c3, c4⟩
      refine ⟨⟨?_, ?_, ?_, ?_⟩, ?_, ?_, ?_, ?_⟩ <;> linarith
    · rintro ⟨⟨c1, c2, c3, c4⟩, d1, d2, d3, d4⟩
      exact ⟨d1, c2, d3, c4⟩

/-- A segment going down to the right through a rectangle. -/
example : ((⟨10, 0⟩ : Point).x ≤ (⟨50, 40⟩ : Point).x ∧ (⟨10, 0⟩ : Point).y ≤ (⟨50, 40⟩ : Point).y) ∧
    (⟨⟨15, 5⟩, ⟨30, 30⟩⟩ : Rect).intersectsLine ⟨10, 0⟩ ⟨50, 40⟩ = true := by decide +kernel

/-- C49 is false in general: the vertical segment from (20, 100) up to (20, 0) passes through the rectangle with corners
(10, 40) and (30, 60), but the code says that it does not meet it; downwards it says that it does. -/
theorem C49_intersects_line_refuted :
    (∃ (r : Rect) (a b : Point), Meets r a b ∧ ¬ InsideInterior r a b ∧ r.intersectsLine a b = false) ∧
    (∃ (r : Rect) (a b : Point), r.intersectsLine a b ≠ r.intersectsLine b a) := by
  refine ⟨⟨⟨⟨10, 40⟩, ⟨20, 20⟩⟩, ⟨20, 100⟩, ⟨20, 0⟩, ⟨1/2, ?_⟩, ?_, ?_⟩, ⟨⟨10, 40⟩, ⟨20, 20⟩⟩, ⟨20, 100⟩, ⟨20, 0⟩, ?_⟩
  · unfold InRect; decide +kernel
  · unfold InsideInterior Interior; decide +kernel
  · decide +kernel
  · decide +kernel

/-- C49 in general for upward vertical segments: no rectangle that reaches down at most to the start and is wider than
the line is ever detected. -/
theorem C49_upward_never_detected (r : Rect) (a b : Point) (hx : a.x = b.x) (h1 : r.minX < a.x) (h2 : a.x < r.maxX)
    (h3 : r.minY < a.y) (h4 : b.y < r.maxY) : r.intersectsLine a b = false := by
  rw [Bool.eq_false_iff, Ne, C49_intersects_line_exact]
  have : ¬ b.x < a.x := by linarith
  simp only [this, if_false]
  rintro ⟨_, h⟩
  exact h ⟨h1, by linarith, h3, h4⟩

example : (⟨⟨10, 40⟩, ⟨20, 20⟩⟩ : Rect).minX < 20 ∧ (20 : Rat) < (⟨⟨10, 40⟩, ⟨20, 20⟩⟩ : Rect).maxX := by decide +kernel

/-- C49, the returned points: `intersected_line` returns the two ends of the part of the segment that lies in the
closed rectangle. -/
theorem C49_intersected_line_ends (r : Rect) (a b u v : Point) (h : r.intersectedLine a b = some (u, v)) :
    ∃ t1 t2 : Rat, 0 ≤ t1 ∧ t1 ≤ 1 ∧ 0 ≤ t2 ∧ t2 ≤ 1 ∧ u = lerp a b t1 ∧ v = lerp a b t2 ∧
      ∀ t, 0 ≤ t → t ≤ 1 → (InRect r (lerp a b t) ↔ min t1 t2 ≤ t ∧ t ≤ max t1 t2) := by
  by_cases hab : b.x < a.x
  · rw [intersectedLine_ordered] at h
    simp only [ordered, hab, if_true] at h
    have hs := intersectedLine_spec r b a (le_of_lt hab)
    rw [h] at hs
    obtain ⟨-, t1, t2, h0, h12, h1, hu, hv, ht⟩ := hs
    have sw : ∀ t, lerp b a t = lerp a b (1 - t) := by
      intro t; simp only [lerp, Point.mk.injEq]; constructor <;> ring
    refine ⟨1 - t1, 1 - t2, by linarith, by linarith, by linarith, by linarith, by rw [hu, sw], by rw [hv, sw], ?_⟩
    intro t g0 g1
    have := ht (1 - t) (by linarith) (by linarith)
    rw [sw, sub_sub_cancel] at this
    rw [this, min_eq_right (by linarith), max_eq_left (by linarith)]
    constructor <;> rintro ⟨c, d⟩ <;> constructor <;> linarith
  · have hs := intersectedLine_spec r a b (by linarith)
    rw [h] at hs
    obtain ⟨-, t1, t2, h0, h12, h1, hu, hv, ht⟩ := hs
    refine ⟨t1, t2, h0, by linarith, by linarith, h1, hu, hv, ?_⟩
    rw [min_eq_left h12, max_eq_right h12]
    exact ht

example : (⟨⟨15, 5⟩, ⟨30, 30⟩⟩ : Rect).intersectedLine ⟨5, 15⟩ ⟨55, 15⟩ = some (⟨15, 15⟩, ⟨45, 15⟩) := by
  decide +kernel

/-! ## C50 `Path` -/

/-- A call on a `Path`. -/
inductive PathOp where
  | moveTo (p : Point)
  | lineTo (p : Point)
  | quadTo (ctrl p : Point)

/-- The point that a call moves to. -/
def PathOp.target : PathOp → Point
  | .moveTo p => p
  | .lineTo p => p
  | .quadTo _ p => p

/-- Perform a call. -/
def PathOp.run (p : Path) : PathOp → Path
  | .moveTo q => p.moveTo q
  | .lineTo q => p.lineTo q
  | .quadTo c q => p.quadTo c q

/-- C50: after any sequence of calls the start point is the one given to `new`, the end point the last one given. -/
theorem C50_path_ends (start : Point) (ops : List PathOp) :
    (ops.foldl PathOp.run (Path.new start)).startPoint = some start ∧
    (ops.foldl PathOp.run (Path.new start)).endPoint = some ((start :: ops.map PathOp.target).getLast (by simp)) ∧
    (ops.foldl PathOp.run (Path.new start)).commands.length = ops.length + 1 := by
  induction ops using List.reverseRecOn with
  | nil => simp [Path.new, Path.startPoint, Path.endPoint]
  | append_singleton ops op ih =>
    rw [List.foldl_append]
    generalize hp : ops.foldl PathOp.run (Path.new start) = p at ih
    have hlen := ih.2.2
    have hs := ih.1
    unfold Path.startPoint at hs
    have hhead : ∀ c, (p.commands ++ [c]).head? = p.commands.head? := by
      intro c
      cases hc : p.commands with
      | nil => rw [hc] at hlen; simp at hlen
      | cons x xs => simp
    cases op with
    | moveTo q => simp [PathOp.run, Path.moveTo, Path.startPoint, Path.endPoint, hhead, hs, hlen, PathOp.target]
    | lineTo q => simp [PathOp.run, Path.lineTo, Path.startPoint, Path.endPoint, hhead, hs, hlen, PathOp.target]
    | quadTo c q => simp [PathOp.run, Path.quadTo, Path.startPoint, Path.endPoint, hhead, hs, hlen, PathOp.target]

example : ([PathOp.lineTo ⟨1, 2⟩, .moveTo ⟨5, 5⟩, .quadTo ⟨6, 6⟩ ⟨7, 8⟩].foldl PathOp.run (Path.new ⟨0, 0⟩)).endPoint
    = some ⟨7, 8⟩ := by decide +kernel

/-! ## C51 distances and directions -/

/-- C51: the rounded-down distance is the largest `n` with `n² ≤ dx² + dy²` (below the saturation bound). -/
theorem C51_distance_floor (a b : Point) (n : Nat) (hn : n < 4294967295) :
    a.distanceU32 b = n ↔
      (n : Rat) ^ 2 ≤ (a.x - b.x) ^ 2 + (a.y - b.y) ^ 2 ∧ (a.x - b.x) ^ 2 + (a.y - b.y) ^ 2 < ((n : Rat) + 1) ^ 2 := by
  have hpos : 0 ≤ a.distSq b := by unfold Point.distSq; positivity
  have hfl : 0 ≤ (a.distSq b).floor := by rw [Rat.le_floor_iff]; simpa using hpos
  have hmin : a.distanceU32 b = n ↔ Nat.sqrt (a.distSq b).floor.toNat = n := by
    unfold Point.distanceU32; omega
  have key : ∀ m : Nat, (m ≤ (a.distSq b).floor.toNat ↔ (m : Rat) ≤ a.distSq b) := by
    intro m
    rw [← Int.ofNat_le, Int.toNat_of_nonneg hfl, Rat.le_floor_iff]
    simp
  rw [hmin, eq_comm, Nat.eq_sqrt', ← not_le, key, key, not_le]
  simp [Point.distSq]

/-- C51: distance is symmetric. -/
theorem C51_distance_symm (a b : Point) : a.distanceU32 b = b.distanceU32 a := by
  have : a.distSq b = b.distSq a := by unfold Point.distSq; ring
  unfold Point.distanceU32; rw [this]

example : (⟨0, 0⟩ : Point).distanceU32 ⟨3, 4⟩ = 5 ∧ (⟨-1, -1⟩ : Point).distanceU32 ⟨1, 1⟩ = 2 := by decide +kernel

/-- C51: for two points on a horizontal or vertical line `orthogonal_direction` is the direction of travel, and the
opposite one backwards. -/
theorem C51_orthogonal_direction (a b : Point) (h : AxisAligned a b) :
    (∀ d, a.orthogonalDirection b = d ↔ Towards d a b) ∧
      b.orthogonalDirection a = opposite (a.orthogonalDirection b) := by
  obtain ⟨ax, ay⟩ := a
  obtain ⟨bx, by'⟩ := b
  simp only [AxisAligned, ne_eq, Point.mk.injEq, not_and] at h
  simp only [Point.orthogonalDirection]
  rcases h with ⟨hne, h | h⟩
  · subst h
    have hne := hne rfl
    rcases lt_or_gt_of_ne hne with h | h
    · have h' := not_lt_of_gt h
      constructor
      · intro d; cases d <;> simp [Towards, h, h']
      · simp [h, h', opposite]
    · have h' := not_lt_of_gt h
      constructor
      · intro d; cases d <;> simp [Towards, h, h']
      · simp [h, h', opposite]
  · subst h
    have hne : ax ≠ bx := fun e => hne e rfl
    rcases lt_or_gt_of_ne hne with h | h
    · have h' := not_lt_of_gt h
      constructor
      · intro d; cases d <;> simp [Towards, h, h', Ne.symm hne]
      · simp [h, h', opposite]
    · have h' := not_lt_of_gt h
      constructor
      · intro d; cases d <;> simp [Towards, h, h', Ne.symm hne]
      · simp [h, h', opposite]

example : AxisAligned ⟨3, 1⟩ ⟨3, -5⟩ ∧ (⟨3, 1⟩ : Point).orthogonalDirection ⟨3, -5⟩ = .up := by
  unfold AxisAligned; decide +kernel

end Seiren
