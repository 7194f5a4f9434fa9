import Verif.Spec.Lexical
import Verif.Model.Reports
/-! # Specification: what is reported about errors

Only result types of the program (`LexReport`, `Span`) are used here, none of its functions. -/

namespace Seiren.Spec

/-- `w` is the beginning of a lexeme. -/
def Begins (w : Str) : Prop := ∃ v t e, Lexeme t (w ++ v) e

/-- A character that may follow a backslash. -/
def EscapeChar (c : Char) : Prop := c = 'u' ∨ ∃ d, (c, d) ∈ escapes

/-- `Fails cs i ex`: no token can be read at the beginning of `cs`, what is there goes wrong at the `i`-th character, and the characters
listed as expected there are `ex`. -/
inductive Fails : Str → Nat → Str → Prop
  /-- no token begins like this -/
  | nothing {cs : Str} (h : ∀ c ∈ cs.head?, ¬ WordStart c ∧ c ∉ c!"`{};.\n\r") : Fails cs 0 c!"o`{};.\n\r"
  /-- a carriage return without line feed -/
  | cr {r : Str} (h : ∀ c ∈ r.head?, c ≠ '\n') : Fails ('\r' :: r) 1 c!"\n"
  /-- a back quote that is not closed -/
  | unclosed {s w : Str} {e : Nat} (h : Pieces s w e) : Fails ('`' :: w) (1 + w.length) c!"`\\"
  /-- a backslash followed by something else than the ten characters that may follow -/
  | escape {s w r : Str} {e : Nat} (h : Pieces s w e) (hr : ∀ c ∈ r.head?, ¬ EscapeChar c) :
      Fails ('`' :: (w ++ ('\\' :: r))) (2 + w.length) c!"\\/\"`bfnrtu"
  /-- fewer than four hexadecimal digits -/
  | digits {s w ds r : Str} {e : Nat} (h : Pieces s w e) (hd : ∀ d ∈ ds, ∃ v, HexDigit d v) (hn : ds.length < 4)
      (hr : ∀ c ∈ r.head?, ∀ v, ¬ HexDigit c v) : Fails ('`' :: (w ++ ('\\' :: 'u' :: (ds ++ r)))) (3 + w.length + ds.length) []

/-- `BadEscapes pos w l`: inside back quotes, from position `pos` on, the digits of the escapes of surrogates in `w` are at the spans `l`. -/
inductive BadEscapes : Nat → Str → List Span → Prop
  | nil {pos : Nat} : BadEscapes pos [] []
  | cons {pos : Nat} {c : Char} {w v : Str} {e : Nat} {l : List Span} (hp : Piece c w e) (h : BadEscapes (pos + w.length) v l) :
      BadEscapes pos (w ++ v) (List.replicate e ⟨pos + 2, pos + 6⟩ ++ l)

/-- The reports about a lexeme that can be read: one for every surrogate. -/
inductive Emitted : Nat → Str → List LexReport → Prop
  | plain {pos : Nat} {w : Str} (h : w.head? ≠ some '`') : Emitted pos w []
  | quoted {pos : Nat} {w : Str} {l : List Span} (h : BadEscapes (pos + 1) w l) :
      Emitted pos ('`' :: (w ++ ['`'])) (l.map fun s => .custom s c!"invalid unicode character")

/-- `Reported pos cs rs`: the reports about the source from position `pos` on (compare `Scan`).  Where characters are skipped, the
report is about the first of them only: it shows what goes wrong with the token that was tried there.  Nothing is reported about
characters behind the last token. -/
inductive Reported : Nat → Str → List LexReport → Prop
  | stop {pos : Nat} {g r : Str} (hg : Gap g r) (ht : Tight r) (hr : ∀ s, s <:+ r → Unreadable s) : Reported pos (g ++ r) []
  | token {pos : Nat} {g w r : Str} {t : Token} {e : Nat} {l rs : List LexReport} (hg : Gap g (w ++ r)) (hw : Reads t w e r)
      (hl : Emitted (pos + g.length) w l) (h : Reported (pos + g.length + w.length) r rs) : Reported pos (g ++ (w ++ r)) (l ++ rs)
  | skip {pos : Nat} {g x w r ex expected : Str} {t : Token} {e i : Nat} {l rs : List LexReport} (hg : Gap g (x ++ (w ++ r)))
      (ht : Tight (x ++ (w ++ r))) (hx : x ≠ []) (hu : ∀ y, y <:+ x → y ≠ [] → Unreadable (y ++ (w ++ r))) (hw : Reads t w e r)
      (hf : Fails (x ++ (w ++ r)) i ex) (hex : ∀ c, c ∈ expected ↔ c ∈ ex) (hl : Emitted (pos + g.length + x.length) w l)
      (h : Reported (pos + g.length + x.length + w.length) r rs) :
      Reported pos (g ++ (x ++ (w ++ r)))
        (.unexpected ⟨pos + g.length + i, pos + g.length + i + 1⟩ (x ++ (w ++ r))[i]? expected :: (l ++ rs))

/-- What a token is called in messages: keywords, the edge and identifiers as they are written, the other tokens in quotes. -/
inductive Names : Token → Str → Prop
  | edge : Names .edge c!"o--o"
  | keyword {t : Token} {s : Str} (h : (s, t) ∈ keywords) : Names t s
  | ident (n : Str) : Names (.ident n) n
  | ctrl (c : Char) : Names (.ctrl c) ['\'', c, '\'']
  | newline : Names .newline c!"'\\n'"

/-- `Enumeration l s`: `s` consists of the members of `l`, with a comma and a blank between them. -/
inductive Enumeration : List Str → Str → Prop
  | one (s : Str) : Enumeration [s] s
  | cons (s : Str) {l : List Str} {m : Str} (h : Enumeration l m) : Enumeration (s :: l) (s ++ (c!", " ++ m))

end Seiren.Spec
