import Verif.Spec.Xml
/-! # How an SVG is laid out as text -/

namespace Seiren.Spec

/-- The order of names: that of their code points. -/
def codes (s : Str) : List Nat := s.map Char.toNat

mutual
/-- An element whose attributes stand in the order of their names and whose content stands on lines of its own: it has no content, or a text
between two line breaks, or elements that are laid out in the same way. -/
def Tidy : Xml → Prop
  | .text _ => False
  | .elem _ attrs content => (attrs.map fun a => codes a.1).Pairwise (· < ·) ∧
      (content = [] ∨ (∃ t, content = [.text (c!"\n" ++ t ++ c!"\n")]) ∨ OnLines content)

/-- Elements with exactly one line break in front of each and behind the last. -/
def OnLines : List Xml → Prop
  | [] => False
  | [.text s] => s = c!"\n"
  | .text s :: x :: rest => s = c!"\n" ∧ Tidy x ∧ OnLines rest
  | .elem _ _ _ :: _ => False
end

mutual
/-- A tree as text, without any white space that is not part of it: one blank before each attribute, values between double quotes, elements
without content as one tag. -/
def printXml : Xml → Str
  | .text s => s
  | .elem n as content => c!"<" ++ n ++ as.flatMap (fun a => c!" " ++ a.1 ++ c!"=\"" ++ a.2 ++ c!"\"") ++
      if content.isEmpty then c!"/>" else c!">" ++ printAll content ++ c!"</" ++ n ++ c!">"

/-- Trees as text. -/
def printAll : List Xml → Str
  | [] => []
  | x :: xs => printXml x ++ printAll xs
end

end Seiren.Spec
