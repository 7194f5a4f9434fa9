import Verif.Model.F32
import Verif.Model.SvgText
import Verif.Model.Machine
import Verif.Model.Program
/-!
# The text written on the machine

`Model/SvgText` prints multiples of 1/2 only.  Here `Display` of `f32` is modelled for every number of the format, and the text of
an SVG once more with the printer of numbers as a parameter, for the drawing that is computed in single precision.

The source of `core::fmt` is not in /repo.  It prints the shortest decimal number that is read as the given one and, among those,
the one closest to it, without an exponent; a number in the middle between two of them is rounded up.  (`core::fmt` accepts a
little less for 2^-126, which makes no difference.)  `-0.0`, which is printed as `-0`, infinities and `NaN` are not represented.
-/

namespace Seiren

/-- The multiple of 10^k closest to `x` that is read as `x`, if there is one: as a multiple of 10^k. -/
def decimalAt (x : Rat) (k : Int) : Option Nat :=
  let lo := (x / 10 ^ k).floor.toNat
  let below := roundF32 (lo * 10 ^ k) = x
  let above := roundF32 ((lo + 1 : Nat) * 10 ^ k) = x
  if above ∧ (¬ below ∨ (lo + 1 : Nat) * 10 ^ k - x ≤ x - lo * 10 ^ k) then some (lo + 1)
  else if below then some lo
  else none

/-- The largest `k`, not above the given one, for which there is one.  (The last case is not reached.) -/
def shortestFrom (x : Rat) : Nat → Int → Nat × Int
  | 0, k => (0, k)
  | fuel + 1, k =>
    match decimalAt x k with
    | some c => (c, k)
    | none => shortestFrom x fuel (k - 1)

/-- `c` times 10^k without an exponent. -/
def decimalText (c : Nat) (k : Int) : Str :=
  if 0 ≤ k then Nat.toDigits 10 c ++ List.replicate k.toNat '0'
  else
    let d := (-k).toNat
    let f := Nat.toDigits 10 (c % 10 ^ d)
    Nat.toDigits 10 (c / 10 ^ d) ++ c!"." ++ List.replicate (d - f.length) '0' ++ f

/-- `Display` of `f32` for a finite number. -/
def displayF32 (x : Rat) : Str :=
  if x = 0 then c!"0"
  else
    let d := shortestFrom |x| 200 39
    (if x < 0 then c!"-" else []) ++ decimalText d.1 d.2

section
variable (num : Rat → Str)

/-- See `PathCommand.display`. -/
def PathCommand.displayWith : PathCommand → Str
  | .moveTo p => c!"M" ++ num p.x ++ c!" " ++ num p.y
  | .lineTo p => c!"L" ++ num p.x ++ c!" " ++ num p.y
  | .quadTo c p => c!"Q" ++ num c.x ++ c!" " ++ num c.y ++ c!" " ++ num p.x ++ c!" " ++ num p.y

/-- See `AttrVal.display`. -/
def AttrVal.displayWith : AttrVal → Str
  | .str s => s
  | .num x => num x
  | .nums xs => joinWith c!", " (xs.map num)
  | .path cs => joinWith c!" " (cs.map (PathCommand.displayWith num))
  | .points ps => joinWith c!" " (ps.map fun p => num p.x ++ c!", " ++ num p.y)

mutual
/-- See `Element.toText`. -/
def Element.toTextWith (esc : Str → Str) : Element → Str
  | .mk name attrs children text =>
    c!"<" ++ name ++ (sortAttrs (attrs.map fun a => (a.1, a.2.displayWith num))).flatMap attrText ++
      if children.isEmpty && text.isNone then c!"/>"
      else c!">" ++ childrenTextWith esc children ++ (text.map fun t => c!"\n" ++ esc t).getD [] ++ c!"\n</" ++ name ++ c!">"

/-- See `childrenText`. -/
def childrenTextWith (esc : Str → Str) : List Element → Str
  | [] => []
  | c :: cs => c!"\n" ++ c.toTextWith esc ++ childrenTextWith esc cs
end

end

/-- renderer.rs:214: the text written for a drawing computed in single precision. -/
def svgTextM (esc : Str → Str) (e : Element) : Str := (withNamespace e).toTextWith displayF32 esc

/-- main.rs:107-130: what a run writes to standard output, computed as on the machine: every floating point operation rounded by
`rnd` and `sq`, every sum of path costs passed through `w`; `none` if it panics. -/
def stdoutTextM (rnd sq : Rat → Rat) (w : Nat → Nat) (q : Queue) (esc : Str → Str) (src : Str) : Option Str :=
  match (parse src).1 with
  | none => some []
  | some m =>
    match drawModuleM rnd sq w q m with
    | .error _ => none
    | .ok e => some (svgTextM esc e)

/-- main.rs:26-133, see `finishMain`. -/
def finishMainM (rnd sq : Rat → Rat) (w : Nat → Nat) (q : Queue) (esc : Str → Str) (filename : Str) : Option Str → Outcome
  | none => ⟨filename, [], [], .failure⟩
  | some src =>
    match stdoutTextM rnd sq w q esc src with
    | some text => ⟨filename, errorsOf src, encodeUtf8 text, .success⟩
    | none => ⟨filename, errorsOf src, [], .panic⟩

/-- main.rs:10-134 `main`, see `runProgram`. -/
def runProgramM (rnd sq : Rat → Rat) (w : Nat → Nat) (q : Queue) (esc : Str → Str) (world : World) : Outcome :=
  match world.args[1]? with
  | some path => finishMainM rnd sq w q esc path (readToString (world.file path))
  | none => finishMainM rnd sq w q esc c!"(stdin)" (readToString world.stdin)

end Seiren
