import Verif.Model.F32Draw
/-!
# The geometry with all values of `f32`

The rest of the model computes with rational numbers.  Here the values of `f32` (IEEE 754 binary32) are written down with the
special ones: two zeros, two infinities and `NaN`; the operations on them are those of the standard, with rounding to the nearest
number, ties to even.  All functions of geometry.rs that compute with `f32` are modelled once more, on these values.

`f32::max` and `f32::min` return the other operand if one is `NaN`; which zero they return for the two zeros is left open by Rust,
and so it is here (the parameter `tie`).

Simplifications: there is one `NaN` (its sign and payload are not observed by the code).
-/

namespace Seiren

/-- A value of `f32`.  `fin q` is the number `q` of the format, other than zero. -/
inductive Fl where
  | nan
  | inf (neg : Bool)
  | zero (neg : Bool)
  | fin (q : Rat)
deriving DecidableEq, Repr

namespace Fl

/-- The rational number of a finite value; 0 for the others. -/
def toRat : Fl → Rat
  | fin q => q
  | _ => 0

/-- The sign bit. -/
def sign : Fl → Bool
  | nan => false
  | inf s => s
  | zero s => s
  | fin q => decide (q < 0)

/-- The result of an operation whose exact result is `q`; `s` is the sign of the result if `q = 0`.  From half a unit above the
largest number on the result is infinite; a number that is too small becomes the zero of its sign. -/
def ofRat (s : Bool) (q : Rat) : Fl :=
  if q = 0 then zero s
  else if 2 ^ 128 - 2 ^ 103 ≤ |q| then inf (decide (q < 0))
  else if roundF32 q = 0 then zero (decide (q < 0))
  else fin (roundF32 q)

/-- `-x` -/
def neg : Fl → Fl
  | nan => nan
  | inf s => inf !s
  | zero s => zero !s
  | fin q => fin (-q)

/-- `x + y` -/
def add : Fl → Fl → Fl
  | nan, _ => nan
  | _, nan => nan
  | inf s, inf t => if s = t then inf s else nan
  | inf s, _ => inf s
  | _, inf t => inf t
  | zero s, zero t => zero (s && t)
  | x, y => ofRat false (x.toRat + y.toRat)

/-- `x - y` -/
def sub (x y : Fl) : Fl := add x (neg y)

/-- `x * y` -/
def mul (x y : Fl) : Fl :=
  match x, y with
  | nan, _ => nan
  | _, nan => nan
  | inf _, zero _ => nan
  | zero _, inf _ => nan
  | inf _, _ => inf (x.sign ^^ y.sign)
  | _, inf _ => inf (x.sign ^^ y.sign)
  | _, _ => ofRat (x.sign ^^ y.sign) (x.toRat * y.toRat)

/-- `x / y` -/
def div (x y : Fl) : Fl :=
  match x, y with
  | nan, _ => nan
  | _, nan => nan
  | inf _, inf _ => nan
  | inf _, _ => inf (x.sign ^^ y.sign)
  | _, inf _ => zero (x.sign ^^ y.sign)
  | zero _, zero _ => nan
  | _, zero _ => inf (x.sign ^^ y.sign)
  | _, _ => ofRat (x.sign ^^ y.sign) (x.toRat / y.toRat)

/-- `x < y`; `x > y` is `y < x`. -/
def lt : Fl → Fl → Bool
  | nan, _ => false
  | _, nan => false
  | inf s, inf t => s && !t
  | inf s, _ => s
  | _, inf t => !t
  | x, y => decide (x.toRat < y.toRat)

/-- `x == y`; `x != y` is its negation. -/
def eq : Fl → Fl → Bool
  | nan, _ => false
  | _, nan => false
  | inf s, inf t => s == t
  | inf _, _ => false
  | _, inf _ => false
  | x, y => decide (x.toRat = y.toRat)

/-- `x <= y`; `x >= y` is `y <= x`. -/
def le (x y : Fl) : Bool := lt x y || eq x y

/-- `x.sqrt()` -/
def sqrt : Fl → Fl
  | nan => nan
  | inf s => if s then nan else inf false
  | zero s => zero s
  | fin q => if q < 0 then nan else fin (sqrtF32 q)

/-- `x as u32`: towards zero, and to the nearest bound outside the range; `NaN` becomes 0. -/
def toU32 : Fl → Nat
  | nan => 0
  | inf s => if s then 0 else 4294967295
  | zero _ => 0
  | fin q => min q.floor.toNat 4294967295

section
variable (tie : Fl → Fl → Bool)

/-- `x.max(y)` -/
def max (x y : Fl) : Fl :=
  if x = nan then y else if y = nan then x else if lt x y then y else if lt y x then x else if tie x y then x else y

/-- `x.min(y)` -/
def min (x y : Fl) : Fl :=
  if x = nan then y else if y = nan then x else if lt x y then x else if lt y x then y else if tie x y then x else y

end

end Fl

/-- `f32::MAX`, and the literals of geometry.rs. -/
def Fl.MAX : Fl := .fin f32Max
/-- `f32::MIN` -/
def Fl.MIN : Fl := .fin f32Min
/-- `0.0` -/
def Fl.zero0 : Fl := .zero false
/-- `1.0` -/
def Fl.one : Fl := .fin 1
/-- `2.0` -/
def Fl.two : Fl := .fin 2

/-- geometry.rs:12-17 `Point` -/
structure FlPoint where
  x : Fl
  y : Fl
deriving DecidableEq, Repr

/-- geometry.rs:48-52 `Size` -/
structure FlSize where
  width : Fl
  height : Fl
deriving DecidableEq, Repr

/-- geometry.rs:80-84 `Rect` -/
structure FlRect where
  origin : FlPoint
  size : FlSize
deriving DecidableEq, Repr

/-- geometry.rs:30-32 `Point::distance`; `powi(2)` is `x * x`. -/
def FlPoint.distance (a b : FlPoint) : Fl :=
  let dx := Fl.sub a.x b.x
  let dy := Fl.sub a.y b.y
  Fl.sqrt (Fl.add (Fl.mul dx dx) (Fl.mul dy dy))

/-- geometry.rs:35-45 `Point::orthogonal_direction` -/
def FlPoint.orthogonalDirection (a b : FlPoint) : Orientation :=
  if Fl.lt b.x a.x then .left
  else if Fl.lt a.x b.x then .right
  else if Fl.lt b.y a.y then .up
  else .down

namespace FlRect

/-- geometry.rs:115-117 `min_x` -/
def minX (r : FlRect) : Fl := r.origin.x
/-- geometry.rs:120-122 `mid_x` -/
def midX (r : FlRect) : Fl := Fl.add r.origin.x (Fl.div r.size.width Fl.two)
/-- geometry.rs:125-127 `max_x` -/
def maxX (r : FlRect) : Fl := Fl.add r.origin.x r.size.width
/-- geometry.rs:130-132 `min_y` -/
def minY (r : FlRect) : Fl := r.origin.y
/-- geometry.rs:135-137 `mid_y` -/
def midY (r : FlRect) : Fl := Fl.add r.origin.y (Fl.div r.size.height Fl.two)
/-- geometry.rs:140-142 `max_y` -/
def maxY (r : FlRect) : Fl := Fl.add r.origin.y r.size.height

/-- geometry.rs:172-180 `inset_by` -/
def insetBy (tie : Fl → Fl → Bool) (r : FlRect) (dx dy : Fl) : FlRect :=
  ⟨⟨Fl.add r.origin.x dx, Fl.add r.origin.y dy⟩,
   ⟨Fl.max tie (Fl.sub r.size.width (Fl.mul dx Fl.two)) Fl.zero0, Fl.max tie (Fl.sub r.size.height (Fl.mul dy Fl.two)) Fl.zero0⟩⟩

/-- geometry.rs:189-196 `contains_point` -/
def containsPoint (r : FlRect) (p : FlPoint) : Bool :=
  Fl.le r.minX p.x && Fl.le p.x r.maxX && Fl.le r.minY p.y && Fl.le p.y r.maxY

/-- geometry.rs:229-311 `intersected_line` -/
def intersectedLine (tie : Fl → Fl → Bool) (r : FlRect) (a b : FlPoint) : Option (FlPoint × FlPoint) :=
  -- 230-234
  let (x, y, dx, dy) :=
    if Fl.lt b.x a.x then (b.x, b.y, Fl.sub a.x b.x, Fl.sub a.y b.y)
    else (a.x, a.y, Fl.sub b.x a.x, Fl.sub b.y a.y)
  -- 236-239
  let left := r.minX
  let right := r.maxX
  let top := r.minY
  let bottom := r.maxY
  -- 241-244
  if Fl.lt left x && Fl.lt (Fl.add x dx) right && Fl.lt top y && Fl.lt (Fl.add y dy) bottom then none
  else
    -- 246-254
    let p1 := Fl.neg dx
    let p2 := Fl.neg p1
    let p3 := Fl.neg dy
    let p4 := Fl.neg p3
    let q1 := Fl.sub x left
    let q2 := Fl.sub right x
    let q3 := Fl.sub y top
    let q4 := Fl.sub bottom y
    -- 256-263
    if (Fl.eq p1 Fl.zero0 && Fl.lt q1 Fl.zero0) || (Fl.eq p2 Fl.zero0 && Fl.lt q2 Fl.zero0) ||
        (Fl.eq p3 Fl.zero0 && Fl.lt q3 Fl.zero0) || (Fl.eq p4 Fl.zero0 && Fl.lt q4 Fl.zero0) then none
    else
      -- 265-269
      let posarr : List Fl := [Fl.one, Fl.one]
      let negarr : List Fl := [Fl.zero0, Fl.zero0]
      -- 271-282
      let (negarr, posarr) :=
        if !Fl.eq p1 Fl.zero0 then
          let r1 := Fl.div q1 p1
          let r2 := Fl.div q2 p2
          if Fl.lt p1 Fl.zero0 then (negarr ++ [r1], posarr ++ [r2]) else (negarr ++ [r2], posarr ++ [r1])
        else (negarr, posarr)
      -- 284-294
      let (negarr, posarr) :=
        if !Fl.eq p3 Fl.zero0 then
          let r3 := Fl.div q3 p3
          let r4 := Fl.div q4 p4
          if Fl.lt p3 Fl.zero0 then (negarr ++ [r3], posarr ++ [r4]) else (negarr ++ [r4], posarr ++ [r3])
        else (negarr, posarr)
      -- 296-297
      let rn1 := negarr.foldl (fun m v => Fl.max tie v m) Fl.nan
      let rn2 := posarr.foldl (fun m v => Fl.min tie v m) Fl.nan
      -- 299-302
      if Fl.lt rn2 rn1 then none
      else
        -- 305-310
        some (⟨Fl.add x (Fl.mul p2 rn1), Fl.add y (Fl.mul p4 rn1)⟩, ⟨Fl.add x (Fl.mul p2 rn2), Fl.add y (Fl.mul p4 rn2)⟩)

/-- geometry.rs:225-227 `intersects_line` -/
def intersectsLine (tie : Fl → Fl → Bool) (r : FlRect) (a b : FlPoint) : Bool := (r.intersectedLine tie a b).isSome

end FlRect

end Seiren
