import Verif.Spec.Geometry
import Mathlib.Algebra.Order.Group.Unbundled.Abs
import Mathlib.Algebra.Order.Ring.Rat
/-! # How close a line comes to a table -/

namespace Seiren.Spec

/-- `p` is at least `d` away from all of `r`, horizontally or vertically. -/
def FarFrom (d : Rat) (r : Rect) (p : Point) : Prop := ∀ q, InRect r q → d ≤ |p.x - q.x| ∨ d ≤ |p.y - q.y|

/-- All points of the segment from `a` to `b` are at least `d` away from all of `r`. -/
def ClearOf (d : Rat) (r : Rect) (a b : Point) : Prop := ∀ t : Rat, 0 ≤ t → t ≤ 1 → FarFrom d r (lerp a b t)

/-- `p` is on the side `o` of `r` (not at a corner). -/
def OnSide (r : Rect) : Orientation → Point → Prop
  | .up, p => p.y = r.origin.y ∧ r.origin.x < p.x ∧ p.x < r.origin.x + r.size.width
  | .down, p => p.y = r.origin.y + r.size.height ∧ r.origin.x < p.x ∧ p.x < r.origin.x + r.size.width
  | .left, p => p.x = r.origin.x ∧ r.origin.y < p.y ∧ p.y < r.origin.y + r.size.height
  | .right, p => p.x = r.origin.x + r.size.width ∧ r.origin.y < p.y ∧ p.y < r.origin.y + r.size.height

/-- The segment from `a` to `b` begins at a side of `r` and goes straight away from it. -/
def Leaves (r : Rect) (a b : Point) : Prop := ∃ o, OnSide r o a ∧ Towards o a b

/-- The segment from `a` to `b` runs along the lower side of `r`. -/
def AlongBottom (r : Rect) (a b : Point) : Prop :=
  a.y = r.origin.y + r.size.height ∧ b.y = r.origin.y + r.size.height ∧ Meets r a b

end Seiren.Spec
