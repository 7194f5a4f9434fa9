import Mathlib.Algebra.Order.Field.Rat
import Verif.Model.Basic
/-!
# Model of `src/geometry.rs`

Simplification used in the whole model: an `f32` is an exact rational (`Rat`).  Rounding, infinities, `NaN`
and `-0.0` are not modelled here (see `Verif/Model/F32.lean` for the rounding model of `place_nodes`).
`f32::MIN` and `f32::MAX` are the exact rational values of those constants.
-/

namespace Seiren

/-- geometry.rs:5-10 `enum Orientation`. -/
inductive Orientation where
  | up
  | down
  | left
  | right
  deriving DecidableEq, Repr

/-- geometry.rs:14-17 `struct Point`. -/
structure Point where
  x : Rat
  y : Rat
  deriving DecidableEq, Repr

/-- geometry.rs:49-52 `struct Size`. -/
structure Size where
  width : Rat
  height : Rat
  deriving DecidableEq, Repr

/-- geometry.rs:81-84 `struct Rect`. -/
structure Rect where
  origin : Point
  size : Size
  deriving DecidableEq, Repr

/-- `f32::MAX` = (2 - 2^-23) * 2^127 (std constant). -/
def f32Max : Rat := 340282346638528859811704183484516925440

/-- `f32::MIN` = -`f32::MAX` (std constant). -/
def f32Min : Rat := -340282346638528859811704183484516925440

namespace Point

/-- geometry.rs:25-27 `Point::zero`. -/
def zero : Point := ⟨0, 0⟩

/-- geometry.rs:30-32 `Point::distance`, squared: the quantity under the `sqrt`.  Every use of `distance`
in the code is `distance as u32` (layout.rs:840-841), modelled by `distanceU32` below. -/
def distSq (a b : Point) : Rat := (a.x - b.x) ^ 2 + (a.y - b.y) ^ 2

/-- geometry.rs:30-32 + layout.rs:841: `self.distance(other) as u32`, i.e. the integer part of the square root,
saturated at `u32::MAX` (Rust float-to-int `as` casts saturate).  `⌊√q⌋ = Nat.sqrt ⌊q⌋` is proved in
`Verif/Props/Geometry.lean`. -/
def distanceU32 (a b : Point) : Nat := min (Nat.sqrt (distSq a b).floor.toNat) 4294967295

/-- geometry.rs:35-45 `Point::orthogonal_direction`. -/
def orthogonalDirection (self dst : Point) : Orientation :=
  if dst.x < self.x then .left
  else if dst.x > self.x then .right
  else if dst.y < self.y then .up
  else .down

end Point

/-- geometry.rs:60-65 `Size::zero`. -/
def Size.zero : Size := ⟨0, 0⟩

namespace Rect

/-- geometry.rs:92-97 `Rect::zero`. -/
def zero : Rect := ⟨Point.zero, Size.zero⟩

/-- geometry.rs:115-117 -/
def minX (r : Rect) : Rat := r.origin.x
/-- geometry.rs:120-122 -/
def midX (r : Rect) : Rat := r.origin.x + r.size.width / 2
/-- geometry.rs:125-127 -/
def maxX (r : Rect) : Rat := r.origin.x + r.size.width
/-- geometry.rs:130-132 -/
def minY (r : Rect) : Rat := r.origin.y
/-- geometry.rs:135-137 -/
def midY (r : Rect) : Rat := r.origin.y + r.size.height / 2
/-- geometry.rs:140-142 -/
def maxY (r : Rect) : Rat := r.origin.y + r.size.height
/-- geometry.rs:145-147 -/
def width (r : Rect) : Rat := r.size.width
/-- geometry.rs:150-152 -/
def height (r : Rect) : Rat := r.size.height
/-- geometry.rs:110-112 `Rect::center`. -/
def center (r : Rect) : Point := ⟨r.midX, r.midY⟩

/-- geometry.rs:172-180 `Rect::inset_by`. -/
def insetBy (r : Rect) (dx dy : Rat) : Rect :=
  ⟨⟨r.origin.x + dx, r.origin.y + dy⟩,
   ⟨max (r.size.width - dx * 2) 0, max (r.size.height - dy * 2) 0⟩⟩

/-- geometry.rs:189-196 `Rect::contains_point`. -/
def containsPoint (r : Rect) (p : Point) : Bool :=
  decide (p.x ≥ r.minX) && decide (p.x ≤ r.maxX) && decide (p.y ≥ r.minY) && decide (p.y ≤ r.maxY)

/-- geometry.rs:296 `negarr.iter().fold(f32::NAN, |m, v| v.max(m))`: `f32::max` ignores a `NaN` operand, so
the fold is the maximum of a non-empty array (0 is only the value for the empty array, which never occurs). -/
def foldMax : List Rat → Rat
  | [] => 0
  | v :: vs => vs.foldl (fun m v => max v m) v

/-- geometry.rs:297 `posarr.iter().fold(f32::NAN, |m, v| v.min(m))`, see `foldMax`. -/
def foldMin : List Rat → Rat
  | [] => 0
  | v :: vs => vs.foldl (fun m v => min v m) v

/-- geometry.rs:229-311 `Rect::intersected_line` (Liang–Barsky), statement by statement. -/
def intersectedLine (r : Rect) (a b : Point) : Option (Point × Point) :=
  -- 230-234
  let (x, y, dx, dy) :=
    if b.x < a.x then (b.x, b.y, a.x - b.x, a.y - b.y)
    else (a.x, a.y, b.x - a.x, b.y - a.y)
  -- 236-239
  let left := r.minX
  let right := r.maxX
  let top := r.minY
  let bottom := r.maxY
  -- 241-244
  if x > left ∧ x + dx < right ∧ y > top ∧ y + dy < bottom then none
  else
    -- 246-254
    let p1 := -dx
    let p2 := -p1
    let p3 := -dy
    let p4 := -p3
    let q1 := x - left
    let q2 := right - x
    let q3 := y - top
    let q4 := bottom - y
    -- 256-263
    if (p1 = 0 ∧ q1 < 0) ∨ (p2 = 0 ∧ q2 < 0) ∨ (p3 = 0 ∧ q3 < 0) ∨ (p4 = 0 ∧ q4 < 0) then none
    else
      -- 265-269
      let posarr : List Rat := [1, 1]
      let negarr : List Rat := [0, 0]
      -- 271-282
      let (negarr, posarr) :=
        if p1 ≠ 0 then
          let r1 := q1 / p1
          let r2 := q2 / p2
          if p1 < 0 then (negarr ++ [r1], posarr ++ [r2]) else (negarr ++ [r2], posarr ++ [r1])
        else (negarr, posarr)
      -- 284-294
      let (negarr, posarr) :=
        if p3 ≠ 0 then
          let r3 := q3 / p3
          let r4 := q4 / p4
          if p3 < 0 then (negarr ++ [r3], posarr ++ [r4]) else (negarr ++ [r4], posarr ++ [r3])
        else (negarr, posarr)
      -- 296-302
      let rn1 := foldMax negarr
      let rn2 := foldMin posarr
      if rn1 > rn2 then none
      else
        -- 305-310
        some (⟨x + p2 * rn1, y + p4 * rn1⟩, ⟨x + p2 * rn2, y + p4 * rn2⟩)

/-- geometry.rs:225-227 `Rect::intersects_line`. -/
def intersectsLine (r : Rect) (a b : Point) : Bool := (r.intersectedLine a b).isSome

end Rect

/-- geometry.rs:369-376 `enum PathCommand`. -/
inductive PathCommand where
  | moveTo (p : Point)
  | lineTo (p : Point)
  | quadTo (ctrl dst : Point)
  deriving DecidableEq, Repr

/-- geometry.rs:318-320 `struct Path`. The field is private in Rust: a `Path` is only built by `Path::new` and
the three mutators. -/
structure Path where
  commands : List PathCommand
  deriving DecidableEq, Repr

namespace Path

/-- geometry.rs:327-331 `Path::new`. -/
def new (start : Point) : Path := ⟨[.moveTo start]⟩
/-- geometry.rs:337-339 -/
def moveTo (p : Path) (pt : Point) : Path := ⟨p.commands ++ [.moveTo pt]⟩
/-- geometry.rs:341-343 -/
def lineTo (p : Path) (pt : Point) : Path := ⟨p.commands ++ [.lineTo pt]⟩
/-- geometry.rs:345-347 -/
def quadTo (p : Path) (ctrl dst : Point) : Path := ⟨p.commands ++ [.quadTo ctrl dst]⟩

/-- geometry.rs:349-355 `Path::start_point`; `none` is the panic of line 351. -/
def startPoint (p : Path) : Option Point :=
  match p.commands.head? with
  | some (.moveTo pt) => some pt
  | _ => none

/-- geometry.rs:357-365 `Path::end_point`; `none` is the panic of the `unwrap` in line 358. -/
def endPoint (p : Path) : Option Point :=
  match p.commands.getLast? with
  | none => none
  | some (.moveTo pt) => some pt
  | some (.lineTo pt) => some pt
  | some (.quadTo _ pt) => some pt

end Path

end Seiren
