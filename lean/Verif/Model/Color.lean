import Verif.Model.Basic
/-! # Model of `src/color.rs` -/

namespace Seiren

/-- color.rs:17-29 `struct RGBColor` (three `u8`s). -/
structure RGBColor where
  red : UInt8
  green : UInt8
  blue : UInt8
  deriving DecidableEq, Repr

/-- color.rs:31-37 `enum NamedColor`. -/
inductive NamedColor where
  | white
  | black
  deriving DecidableEq, Repr

/-- color.rs:3-9 `enum WebColor`. -/
inductive WebColor where
  | rgb (c : RGBColor)
  | named (c : NamedColor)
  deriving DecidableEq, Repr

/-- color.rs:11-15 `impl Default for WebColor`. -/
def WebColor.default : WebColor := .named .black

/-- One upper-case hexadecimal digit, as produced by Rust's `{:X}`; used for nibbles (`n < 16`). -/
def hexDigit (n : Nat) : Char :=
  if n < 10 then Char.ofNat (48 + n) else Char.ofNat (55 + n)

/-- Rust's `{:02X}` on a `u8`: two upper-case hexadecimal digits, zero padded. -/
def hex2 (b : UInt8) : Str := [hexDigit (b.toNat / 16), hexDigit (b.toNat % 16)]

/-- color.rs:18 `#[display(fmt = "#{:02X}{:02X}{:02X}", red, green, blue)]`. -/
def RGBColor.display (c : RGBColor) : Str :=
  '#' :: (hex2 c.red ++ hex2 c.green ++ hex2 c.blue)

/-- color.rs:32-36: `Display` of `NamedColor`. -/
def NamedColor.display : NamedColor → Str
  | .white => c!"white"
  | .black => c!"black"

/-- color.rs:5,7: `Display` of `WebColor` delegates to the payload. -/
def WebColor.display : WebColor → Str
  | .rgb c => c.display
  | .named c => c.display

end Seiren
