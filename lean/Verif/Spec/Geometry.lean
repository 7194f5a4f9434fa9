import Verif.Model.Geometry
/-! # Geometric notions used in statements (independent of the model's algorithms) -/

namespace Seiren.Spec

/-- The point at parameter `t` of the segment from `a` (`t = 0`) to `b` (`t = 1`). -/
def lerp (a b : Point) (t : Rat) : Point := ⟨a.x + t * (b.x - a.x), a.y + t * (b.y - a.y)⟩

/-- `p` is in the closed rectangle `r`. -/
def InRect (r : Rect) (p : Point) : Prop :=
  r.origin.x ≤ p.x ∧ p.x ≤ r.origin.x + r.size.width ∧ r.origin.y ≤ p.y ∧ p.y ≤ r.origin.y + r.size.height

/-- `p` is in the interior of `r`. -/
def Interior (r : Rect) (p : Point) : Prop :=
  r.origin.x < p.x ∧ p.x < r.origin.x + r.size.width ∧ r.origin.y < p.y ∧ p.y < r.origin.y + r.size.height

/-- The segment from `a` to `b` has a point in the closed rectangle `r`. -/
def Meets (r : Rect) (a b : Point) : Prop := ∃ t : Rat, 0 ≤ t ∧ t ≤ 1 ∧ InRect r (lerp a b t)

/-- The segment from `a` to `b` has a point in the interior of `r`. -/
def Crosses (r : Rect) (a b : Point) : Prop := ∃ t : Rat, 0 ≤ t ∧ t ≤ 1 ∧ Interior r (lerp a b t)

/-- The segment from `a` to `b` lies in the interior of `r` (an interior is convex, so its ends decide). -/
def InsideInterior (r : Rect) (a b : Point) : Prop := Interior r a ∧ Interior r b

/-- The opposite direction. -/
def opposite : Orientation → Orientation
  | .up => .down
  | .down => .up
  | .left => .right
  | .right => .left

/-- `q` lies straight in direction `d` from `p`, at a positive distance. -/
def Towards (d : Orientation) (p q : Point) : Prop :=
  match d with
  | .up => q.x = p.x ∧ q.y < p.y
  | .down => q.x = p.x ∧ p.y < q.y
  | .left => q.y = p.y ∧ q.x < p.x
  | .right => q.y = p.y ∧ p.x < q.x

/-- `p` and `q` are different points on a horizontal or vertical line. -/
def AxisAligned (p q : Point) : Prop := p ≠ q ∧ (p.x = q.x ∨ p.y = q.y)

/-- The middle of a side of a rectangle. -/
def sideMiddle (r : Rect) : Orientation → Point
  | .up => ⟨r.origin.x + r.size.width / 2, r.origin.y⟩
  | .down => ⟨r.origin.x + r.size.width / 2, r.origin.y + r.size.height⟩
  | .left => ⟨r.origin.x, r.origin.y + r.size.height / 2⟩
  | .right => ⟨r.origin.x + r.size.width, r.origin.y + r.size.height / 2⟩

end Seiren.Spec
