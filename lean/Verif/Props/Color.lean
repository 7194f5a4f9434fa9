import Verif.Model.Color
/-! # C52: colours are written unambiguously -/

namespace Seiren

namespace Spec

/-- The value of an upper-case hexadecimal digit. -/
def upperHexVal (c : Char) : Option Nat := c!"0123456789ABCDEF".idxOf? c

/-- Read two digits as a number. -/
def readByte (a b : Char) : Option UInt8 :=
  match upperHexVal a, upperHexVal b with
  | some x, some y => some (UInt8.ofNat (16 * x + y))
  | _, _ => none

/-- Read a colour in the notation `#RRGGBB`, or a name. -/
def readColor : Str → Option WebColor
  | ['#', a, b, c, d, e, f] =>
    match readByte a b, readByte c d, readByte e f with
    | some r, some g, some b => some (.rgb ⟨r, g, b⟩)
    | _, _, _ => none
  | s => if s = c!"white" then some (.named .white) else if s = c!"black" then some (.named .black) else none

end Spec

theorem hexDigit_read : ∀ n : Fin 16, Spec.upperHexVal (hexDigit n) = some n.val := by decide

theorem hex2_read (b : UInt8) : Spec.readByte (hexDigit (b.toNat / 16)) (hexDigit (b.toNat % 16)) = some b := by
  have hb := b.toNat_lt
  have h1 := hexDigit_read ⟨b.toNat / 16, by omega⟩
  have h2 := hexDigit_read ⟨b.toNat % 16, by omega⟩
  simp only at h1 h2
  simp only [Spec.readByte, h1, h2]
  congr 1
  have : 16 * (b.toNat / 16) + b.toNat % 16 = b.toNat := by omega
  rw [this, UInt8.ofNat_toNat]

/-- C52: the text of every colour decodes to the colour; that of an RGB colour is `#` and six upper-case hexadecimal
digits. -/
theorem C52_color_text (c : WebColor) :
    Spec.readColor c.display = some c ∧
      (∀ x, c = .rgb x → c.display.length = 7 ∧ c.display.head? = some '#' ∧
        ∀ d ∈ c.display.tail, d ∈ c!"0123456789ABCDEF") := by
  cases c with
  | named n => cases n <;> simp [WebColor.display, NamedColor.display, Spec.readColor]
  | rgb x =>
    have mem : ∀ n : Fin 16, hexDigit n ∈ c!"0123456789ABCDEF" := by decide
    have m1 : ∀ b : UInt8, hexDigit (b.toNat / 16) ∈ c!"0123456789ABCDEF" := fun b =>
      mem ⟨b.toNat / 16, by have := b.toNat_lt; omega⟩
    have m2 : ∀ b : UInt8, hexDigit (b.toNat % 16) ∈ c!"0123456789ABCDEF" := fun b =>
      mem ⟨b.toNat % 16, by omega⟩
    constructor
    · simp only [WebColor.display, RGBColor.display, hex2, List.cons_append, List.nil_append, Spec.readColor,
        hex2_read]
    · rintro y h
      refine ⟨rfl, rfl, ?_⟩
      intro d hd
      simp only [WebColor.display, RGBColor.display, hex2, List.cons_append, List.nil_append, List.tail_cons,
        List.mem_cons, List.not_mem_nil, or_false] at hd
      rcases hd with rfl | rfl | rfl | rfl | rfl | rfl <;> first | exact m1 _ | exact m2 _

/-- C52: different colours have different texts. -/
theorem C52_color_injective (c d : WebColor) (h : c.display = d.display) : c = d := by
  have hc := (C52_color_text c).1
  rw [h, (C52_color_text d).1] at hc
  exact (Option.some.inj hc).symm

example : (WebColor.rgb ⟨28, 236, 5⟩).display = c!"#1CEC05" := by decide

end Seiren
