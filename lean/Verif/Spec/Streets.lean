import Verif.Model.Route
import Verif.Spec.Picture
import Verif.Spec.Geometry
import Mathlib.Algebra.Order.Group.Unbundled.Abs
import Mathlib.Algebra.Order.Ring.Rat
/-!
# The road map along which relations are drawn

The map is described by the numbers of lines of the tables alone and by the sides at which relations may end.  A place of the
map is a crossing (no orientation) or an end of a relation at the middle of a side, which can be left only in the direction of
that side.
-/

namespace Seiren.Spec

/-- The tables, given their numbers of lines. -/
def tableRects (ns : List Nat) : List Rect := ns.zipIdx.map fun (n, k) => tableRect ns k n

/-- The corners of a frame drawn at distance 40 around a rectangle, clockwise from the top left one. -/
def frameCorners (r : Rect) : List Point :=
  let left := r.origin.x - 40
  let right := r.origin.x + r.size.width + 40
  let top := r.origin.y - 40
  let bottom := r.origin.y + r.size.height + 40
  [⟨left, top⟩, ⟨right, top⟩, ⟨right, bottom⟩, ⟨left, bottom⟩]

/-- The corners of the frames around all tables. -/
def corners (ns : List Nat) : List Point := (tableRects ns).flatMap frameCorners

/-- The line at height `y` passes a table or its frame. -/
def AtHeightOf (r : Rect) (y : Rat) : Prop := r.origin.y - 40 ≤ y ∧ y ≤ r.origin.y + r.size.height + 40

/-- The street through corner `j` is reached from `c`, going in direction `o`.  To the left and to the right the way ends at
the nearer side of the frame of a table that stands in the way.  Up and down nothing stops it. -/
def Sees (ns : List Nat) (c : Point) : Orientation → Point → Prop
  | .left, j => j.x ≤ c.x ∧ ∀ r ∈ tableRects ns, AtHeightOf r c.y → r.origin.x + r.size.width + 40 < c.x →
      r.origin.x + r.size.width + 40 ≤ j.x
  | .right, j => c.x ≤ j.x ∧ ∀ r ∈ tableRects ns, AtHeightOf r c.y → c.x < r.origin.x - 40 → j.x ≤ r.origin.x - 40
  | .up, j => j.y ≤ c.y
  | .down, j => c.y ≤ j.y

/-- Where the way from `c` in direction `o` meets the street through corner `j`. -/
def crossingAt (c : Point) : Orientation → Point → Point
  | .left, j => ⟨j.x, c.y⟩
  | .right, j => ⟨j.x, c.y⟩
  | .up, j => ⟨c.x, j.y⟩
  | .down, j => ⟨c.x, j.y⟩

/-- At most 39 away from a table (inside it, or horizontally and vertically near it). -/
def CloseToTable (ns : List Nat) (p : Point) : Prop :=
  ∃ r ∈ tableRects ns, r.origin.x - 39 ≤ p.x ∧ p.x ≤ r.origin.x + r.size.width + 39 ∧
    r.origin.y - 39 ≤ p.y ∧ p.y ≤ r.origin.y + r.size.height + 39

/-- The sides at which a relation may end, in the order in which they are tried: any side of a table; the left and right side
of a column, and the lower side of the last one. -/
def sidesOf (ns : List Nat) : NodeRef → List Orientation
  | .table _ => [.up, .right, .down, .left]
  | .column k j => if ns[k]? = some (j + 2) then [.right, .down, .left] else [.right, .left]

/-- The places at which a relation may end. -/
def endsOf (ns : List Nat) (r : NodeRef) : List (Point × Orientation) :=
  (sidesOf ns r).map fun o => (sideMiddle (refRect ns r) o, o)

/-- The ends of all relations. -/
def allEnds (ns : List Nat) (cs : List (NodeRef × NodeRef)) : List (Point × Orientation) :=
  cs.flatMap fun c => endsOf ns c.1 ++ endsOf ns c.2

open Classical in
/-- The crossings: the corners, and where the ways from the ends of relations meet the streets through the corners; those close
to a table are left out. -/
noncomputable def crossings (ns : List Nat) (es : List (Point × Orientation)) : List Point :=
  (corners ns ++ es.flatMap fun e => ((corners ns).filter fun j => decide (Sees ns e.1 e.2 j)).map (crossingAt e.1 e.2)).filter
    fun p => decide (¬ CloseToTable ns p)

/-- The places of the map, each once, in the order of their first mention. -/
noncomputable def places (ns : List Nat) (es : List (Point × Orientation)) : List RouteNodeData :=
  ((crossings ns es).map (fun p => (⟨p, none⟩ : RouteNodeData)) ++ es.map fun e => (⟨e.1, some e.2⟩ : RouteNodeData)).eraseDups

/-- A place may be left in direction `d`. -/
def Open (d : Orientation) (n : RouteNodeData) : Prop := n.orientation = none ∨ n.orientation = some d

/-- `m` can be seen from `n` in direction `d`, if no table is in the way. -/
def Ahead (d : Orientation) (n m : RouteNodeData) : Prop :=
  Towards d n.location m.location ∧ Open d n ∧ Open (opposite d) m

/-- The inside of a table, one unit away from its sides. -/
def inside (r : Rect) : Rect := ⟨⟨r.origin.x + 1, r.origin.y + 1⟩, ⟨r.size.width - 2, r.size.height - 2⟩⟩

/-- A table is in the way from `p` to `q`.  Going up, nothing is ever in the way. -/
def Obstructed (ns : List Nat) (d : Orientation) (p q : Point) : Prop :=
  d ≠ .up ∧ ∃ r ∈ tableRects ns, Meets (inside r) p q

/-- The `b`-th place is one of those among which the neighbour of `n` in direction `d` is chosen: it is ahead, and there is no
table in the way or it is the first place ahead in the list. -/
def Eligible (ns : List Nat) (ps : List RouteNodeData) (d : Orientation) (n : RouteNodeData) (b : Nat) : Prop :=
  ∃ m, ps[b]? = some m ∧ Ahead d n m ∧
    (¬ Obstructed ns d n.location m.location ∨ ∀ c k, ps[c]? = some k → Ahead d n k → b ≤ c)

/-- Distance along horizontal and vertical lines. -/
def distance (p q : Point) : Rat := |p.x - q.x| + |p.y - q.y|

/-- The `b`-th place is the neighbour of the `a`-th in direction `d`: the nearest eligible one. -/
def NeighbourIn (ns : List Nat) (ps : List RouteNodeData) (d : Orientation) (a b : Nat) : Prop :=
  ∃ n m, ps[a]? = some n ∧ ps[b]? = some m ∧ Eligible ns ps d n b ∧
    ∀ c k, ps[c]? = some k → Eligible ns ps d n c → distance n.location m.location ≤ distance n.location k.location

/-- Two places are joined by a road if one is the neighbour of the other. -/
def Road (ns : List Nat) (ps : List RouteNodeData) (a b : Nat) : Prop :=
  ∃ d, NeighbourIn ns ps d a b ∨ NeighbourIn ns ps d b a

/-- Places, each joined to the next one by a road, at the given points. -/
def Follows (ns : List Nat) (pl : List RouteNodeData) (w : List Nat) (ps : List Point) : Prop :=
  (∀ (k a b : Nat), w[k]? = some a → w[k + 1]? = some b → Road ns pl a b) ∧
    List.Forall₂ (fun i p => ∃ n, pl[i]? = some n ∧ n.location = p) w ps

/-- A route on the map of the connections `cs`, from an end of `c.1` to an end of `c.2`. -/
def IsRoute (ns : List Nat) (cs : List (NodeRef × NodeRef)) (c : NodeRef × NodeRef) (ps : List Point) : Prop :=
  (∃ w, Follows ns (places ns (allEnds ns cs)) w ps) ∧
    (∃ a o, ps.head? = some a ∧ (a, o) ∈ endsOf ns c.1) ∧ ∃ b o, ps.getLast? = some b ∧ (b, o) ∈ endsOf ns c.2

end Seiren.Spec
