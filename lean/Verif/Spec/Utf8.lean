import Verif.Model.Basic
import Mathlib.Data.List.Forall2
/-! # UTF-8, as in the Unicode standard: the shortest sequence of bytes of one of four patterns with the bits of a character -/

namespace Seiren.Spec

/-- The four patterns `0xxxxxxx`, `110xxxxx 10xxxxxx`, `1110xxxx 10xxxxxx 10xxxxxx`, `11110xxx 10xxxxxx 10xxxxxx 10xxxxxx` and
the number that the bits `x` make up. -/
inductive Bits : List Nat → Nat → Prop where
  | one {a : Nat} (ha : a < 128) : Bits [a] a
  | two {a b : Nat} (ha : a < 32) (hb : b < 64) : Bits [192 + a, 128 + b] (64 * a + b)
  | three {a b c : Nat} (ha : a < 16) (hb : b < 64) (hc : c < 64) :
      Bits [224 + a, 128 + b, 128 + c] (64 * (64 * a + b) + c)
  | four {a b c d : Nat} (ha : a < 8) (hb : b < 64) (hc : c < 64) (hd : d < 64) :
      Bits [240 + a, 128 + b, 128 + c, 128 + d] (64 * (64 * (64 * a + b) + c) + d)

/-- The bytes of a character: the shortest pattern with its code point. -/
def CharBytes (c : Char) (bs : List Nat) : Prop := Bits bs c.toNat ∧ ∀ bs', Bits bs' c.toNat → bs.length ≤ bs'.length

/-- `bs` are the bytes of the text `s`: those of its characters, one after the other. -/
def TextBytes (s : Str) (bs : List UInt8) : Prop :=
  ∃ chunks : List (List Nat), List.Forall₂ CharBytes s chunks ∧ bs.map UInt8.toNat = chunks.flatten

end Seiren.Spec
