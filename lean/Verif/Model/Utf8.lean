import Verif.Model.Basic
/-! # Reading and writing text as bytes

`fs::read_to_string` and `Read::read_to_string` (main.rs:19, 22) accept the bytes that `std::str::from_utf8` accepts; the svg
crate writes the bytes of a `String` (renderer.rs:214). -/

namespace Seiren

/-- A continuation byte, `0x80..=0xBF`. -/
def isContinuation (b : UInt8) : Bool := decide (0x80 ≤ b.toNat ∧ b.toNat ≤ 0xBF)

/-- core::str::validations `run_utf8_validation`, the second byte of a sequence of three:
`(0xE0, 0xA0..=0xBF) | (0xE1..=0xEC, 0x80..=0xBF) | (0xED, 0x80..=0x9F) | (0xEE..=0xEF, 0x80..=0xBF)`. -/
def secondOfThree (b0 b1 : UInt8) : Bool :=
  decide ((b0.toNat = 0xE0 ∧ 0xA0 ≤ b1.toNat ∧ b1.toNat ≤ 0xBF) ∨
    (0xE1 ≤ b0.toNat ∧ b0.toNat ≤ 0xEC ∧ 0x80 ≤ b1.toNat ∧ b1.toNat ≤ 0xBF) ∨
    (b0.toNat = 0xED ∧ 0x80 ≤ b1.toNat ∧ b1.toNat ≤ 0x9F) ∨
    (0xEE ≤ b0.toNat ∧ b0.toNat ≤ 0xEF ∧ 0x80 ≤ b1.toNat ∧ b1.toNat ≤ 0xBF))

/-- core::str::validations `run_utf8_validation`, the second byte of a sequence of four:
`(0xF0, 0x90..=0xBF) | (0xF1..=0xF3, 0x80..=0xBF) | (0xF4, 0x80..=0x8F)`. -/
def secondOfFour (b0 b1 : UInt8) : Bool :=
  decide ((b0.toNat = 0xF0 ∧ 0x90 ≤ b1.toNat ∧ b1.toNat ≤ 0xBF) ∨
    (0xF1 ≤ b0.toNat ∧ b0.toNat ≤ 0xF3 ∧ 0x80 ≤ b1.toNat ∧ b1.toNat ≤ 0xBF) ∨
    (b0.toNat = 0xF4 ∧ 0x80 ≤ b1.toNat ∧ b1.toNat ≤ 0x8F))

/-- core::str::validations `run_utf8_validation` followed by `chars()` (`next_code_point`): the characters of a valid sequence of
bytes, `none` if it is not valid.  The width of a character is that of the table `UTF8_CHAR_WIDTH` for its first byte. (The
fast path for ASCII gives the same result and is left out; masks and shifts are written as `%`, `*` and `+`.) -/
def decodeUtf8 : List UInt8 → Option Str
  | [] => some []
  | b0 :: rest =>
    if b0.toNat < 0x80 then (decodeUtf8 rest).map (Char.ofNat b0.toNat :: ·)
    else if 0xC2 ≤ b0.toNat ∧ b0.toNat ≤ 0xDF then
      match rest with
      | b1 :: rest =>
        if isContinuation b1 then (decodeUtf8 rest).map (Char.ofNat (b0.toNat % 32 * 64 + b1.toNat % 64) :: ·) else none
      | _ => none
    else if 0xE0 ≤ b0.toNat ∧ b0.toNat ≤ 0xEF then
      match rest with
      | b1 :: b2 :: rest =>
        if secondOfThree b0 b1 && isContinuation b2 then
          (decodeUtf8 rest).map (Char.ofNat (b0.toNat % 16 * 4096 + b1.toNat % 64 * 64 + b2.toNat % 64) :: ·)
        else none
      | _ => none
    else if 0xF0 ≤ b0.toNat ∧ b0.toNat ≤ 0xF4 then
      match rest with
      | b1 :: b2 :: b3 :: rest =>
        if secondOfFour b0 b1 && isContinuation b2 && isContinuation b3 then
          (decodeUtf8 rest).map
            (Char.ofNat (b0.toNat % 8 * 262144 + b1.toNat % 64 * 4096 + b2.toNat % 64 * 64 + b3.toNat % 64) :: ·)
        else none
      | _ => none
    else none

/-- core::char::methods `encode_utf8_raw`: the bytes of a character.  (`code >> 6 & 0x3F | TAG` is written as `%`, `/`, `+`.) -/
def encodeChar (c : Char) : List UInt8 :=
  let code := c.toNat
  if code < 0x80 then [UInt8.ofNat code]
  else if code < 0x800 then [UInt8.ofNat (code / 64 % 32 + 0xC0), UInt8.ofNat (code % 64 + 0x80)]
  else if code < 0x10000 then
    [UInt8.ofNat (code / 4096 % 16 + 0xE0), UInt8.ofNat (code / 64 % 64 + 0x80), UInt8.ofNat (code % 64 + 0x80)]
  else [UInt8.ofNat (code / 262144 % 8 + 0xF0), UInt8.ofNat (code / 4096 % 64 + 0x80), UInt8.ofNat (code / 64 % 64 + 0x80),
    UInt8.ofNat (code % 64 + 0x80)]

/-- `String::into_bytes`. -/
def encodeUtf8 (s : Str) : List UInt8 := s.flatMap encodeChar

end Seiren
