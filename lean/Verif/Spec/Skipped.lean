import Verif.Spec.Lexical
/-! # Specification: what the tokenizer skips, and quotations that are not closed -/

namespace Seiren.Spec

/-- `Skipped p s`: on reading `p`, the first character of its suffix `s` is skipped, because no token can be read there nor at the
characters before it, back to the gap behind a token or at the beginning. -/
inductive Skipped : Str → Str → Prop
  | here {g z s : Str} (hg : Gap g z) (ht : Tight z) (hs : s <:+ z) (hne : s ≠ [])
      (hu : ∀ y, y <:+ z → s.length ≤ y.length → Unreadable y) : Skipped (g ++ z) s
  | later {g x w r s : Str} {t : Token} {e : Nat} (hg : Gap g (x ++ (w ++ r))) (ht : x ≠ [] → Tight (x ++ (w ++ r)))
      (hu : ∀ y, y <:+ x → y ≠ [] → Unreadable (y ++ (w ++ r))) (hw : Reads t w e r) (h : Skipped r s) :
      Skipped (g ++ (x ++ (w ++ r))) s

/-- A back quote, behind it the spelling of some name, perhaps with a backslash at the end: a slash continues the quotation. -/
def OpenQuote (s : Str) : Prop := ∃ n w e, Pieces n w e ∧ (s = '`' :: w ∨ s = '`' :: (w ++ ['\\']))

end Seiren.Spec
