import Verif.Model.Lexer
/-! # Specification: lexemes, gaps and what the tokenizer has to return

Nothing here refers to the tokenizer; `Token`, `Span` and `LexError` are its result types. -/

namespace Seiren.Spec

/-- A letter or underscore. -/
def WordStart (c : Char) : Prop := ('a' ≤ c ∧ c ≤ 'z') ∨ ('A' ≤ c ∧ c ≤ 'Z') ∨ c = '_'

/-- A letter, underscore or digit. -/
def WordChar (c : Char) : Prop := WordStart c ∨ ('0' ≤ c ∧ c ≤ '9')

/-- `[A-Za-z_][A-Za-z0-9_]*` -/
def IsWord (s : Str) : Prop := ∃ c cs, s = c :: cs ∧ WordStart c ∧ ∀ d ∈ cs, WordChar d

/-- The seven keywords. -/
def keywords : List (Str × Token) :=
  [(c!"erd", .erd), (c!"int", .int), (c!"uuid", .uuid), (c!"text", .text), (c!"timestamp", .timestamp), (c!"PK", .pk), (c!"FK", .fk)]

/-- The escape sequences of two characters: the character behind the backslash and what it stands for. -/
def escapes : List (Char × Char) :=
  [('\\', '\\'), ('/', '/'), ('"', '"'), ('`', '`'), ('b', Char.ofNat 8), ('f', Char.ofNat 12), ('n', '\n'), ('r', '\r'), ('t', '\t')]

/-- The hexadecimal digit `c` has value `v`. -/
def HexDigit (c : Char) (v : Nat) : Prop :=
  c!"0123456789abcdef"[v]? = some c ∨ c!"0123456789ABCDEF"[v]? = some c

/-- `Piece c w e`: inside back quotes, `w` stands for the character `c`, with `e` errors (0 or 1). -/
inductive Piece : Char → Str → Nat → Prop
  | raw (c : Char) (h1 : c ≠ '\\') (h2 : c ≠ '`') : Piece c [c] 0
  | escape (x c : Char) (h : (x, c) ∈ escapes) : Piece c ['\\', x] 0
  | unicode (a b c d : Char) (i j k l : Nat) (ha : HexDigit a i) (hb : HexDigit b j) (hc : HexDigit c k) (hd : HexDigit d l)
      (hs : ¬ (0xD800 ≤ 4096 * i + 256 * j + 16 * k + l ∧ 4096 * i + 256 * j + 16 * k + l ≤ 0xDFFF)) :
      Piece (Char.ofNat (4096 * i + 256 * j + 16 * k + l)) ['\\', 'u', a, b, c, d] 0
  | surrogate (a b c d : Char) (i j k l : Nat) (ha : HexDigit a i) (hb : HexDigit b j) (hc : HexDigit c k) (hd : HexDigit d l)
      (hs : 0xD800 ≤ 4096 * i + 256 * j + 16 * k + l ∧ 4096 * i + 256 * j + 16 * k + l ≤ 0xDFFF) :
      Piece (Char.ofNat 0xFFFD) ['\\', 'u', a, b, c, d] 1

/-- A sequence of pieces: the name, its spelling, the number of errors. -/
inductive Pieces : Str → Str → Nat → Prop
  | nil : Pieces [] [] 0
  | cons {c : Char} {w : Str} {e : Nat} {s v : Str} {n : Nat} (hp : Piece c w e) (h : Pieces s v n) : Pieces (c :: s) (w ++ v) (e + n)

/-- `Lexeme t w e`: `w` spells the token `t`, with `e` errors. -/
inductive Lexeme : Token → Str → Nat → Prop
  | edge : Lexeme .edge c!"o--o" 0
  | keyword {s : Str} {t : Token} (h : (s, t) ∈ keywords) : Lexeme t s 0
  | word {s : Str} (h : IsWord s) (hk : ∀ t, (s, t) ∉ keywords) : Lexeme (.ident s) s 0
  | quoted {s w : Str} {e : Nat} (h : Pieces s w e) : Lexeme (.ident s) ('`' :: (w ++ ['`'])) e
  | ctrl {c : Char} (h : c ∈ c!"{};.") : Lexeme (.ctrl c) [c] 0
  | newline : Lexeme .newline c!"\n" 0
  | crlf : Lexeme .newline c!"\r\n" 0

/-- `w` spells the token `t` and is not part of something longer when followed by `r`: a word ends where its characters end, and
the `o` of an edge is not a word. -/
def Reads (t : Token) (w : Str) (e : Nat) (r : Str) : Prop :=
  Lexeme t w e ∧ (IsWord w → (∀ c ∈ r.head?, ¬ WordChar c) ∧ ¬ (w = c!"o" ∧ c!"--o" <+: r))

/-- No token can be read at the beginning of `cs`. -/
def Unreadable (cs : Str) : Prop := ∀ t w e r, cs = w ++ r → ¬ Reads t w e r

def Blank (c : Char) : Prop := c = ' ' ∨ c = '\t'

/-- `Gap g r`: when followed by `r`, `g` consists of blanks and tabs and perhaps a comment, which extends to the end of the
line. -/
inductive Gap : Str → Str → Prop
  | blanks {g r : Str} (h : ∀ c ∈ g, Blank c) : Gap g r
  | comment {g x r : Str} (h : ∀ c ∈ g, Blank c) (hx : '\n' ∉ x) (hr : ∀ c ∈ r.head?, c = '\n') : Gap (g ++ ('/' :: '/' :: x)) r

/-- No gap could begin here. -/
def Tight (r : Str) : Prop := (∀ c ∈ r.head?, ¬ Blank c) ∧ ¬ c!"//" <+: r

/-- What the tokenizer has to return for the source from position `pos` on: the tokens with their spans, and the errors.  Between
tokens there is a gap and possibly characters at which no token can be read: they are reported as an error and count to the span
of the token that follows them.  Trailing characters at which no token can be read are not reported. -/
inductive Scan : Nat → Str → List (Token × Span) → List LexError → Prop
  | stop {pos : Nat} {g r : Str} (hg : Gap g r) (ht : Tight r) (hr : ∀ s, s <:+ r → Unreadable s) : Scan pos (g ++ r) [] []
  | token {pos : Nat} {g w r : Str} {t : Token} {e : Nat} {ts : List (Token × Span)} {errs : List LexError}
      (hg : Gap g (w ++ r)) (hw : Reads t w e r) (h : Scan (pos + g.length + w.length) r ts errs) :
      Scan pos (g ++ (w ++ r)) ((t, ⟨pos + g.length, pos + g.length + w.length⟩) :: ts) (List.replicate e .invalidUnicode ++ errs)
  | skip {pos : Nat} {g x w r : Str} {t : Token} {e : Nat} {ts : List (Token × Span)} {errs : List LexError}
      (hg : Gap g (x ++ (w ++ r))) (ht : Tight (x ++ (w ++ r))) (hx : x ≠ []) (hu : ∀ y, y <:+ x → y ≠ [] → Unreadable (y ++ (w ++ r)))
      (hw : Reads t w e r) (h : Scan (pos + g.length + x.length + w.length) r ts errs) :
      Scan pos (g ++ (x ++ (w ++ r))) ((t, ⟨pos + g.length, pos + g.length + x.length + w.length⟩) :: ts)
        (.unexpected (pos + g.length) :: (List.replicate e .invalidUnicode ++ errs))

/-- `Layout ls src`: the source consists of lexemes of the given tokens (with their numbers of errors), each after a gap, and a
gap at the end; behind a word there is no character that would continue it. -/
inductive Layout : List (Token × Nat) → Str → Prop
  | nil {g : Str} (hg : Gap g []) : Layout [] g
  | cons {t : Token} {w : Str} {e : Nat} {g r : Str} {ls : List (Token × Nat)} (hg : Gap g (w ++ r)) (hl : Lexeme t w e)
      (hw : IsWord w → ∀ c ∈ r.head?, ¬ WordChar c) (h : Layout ls r) : Layout ((t, e) :: ls) (g ++ (w ++ r))

/-- `LaidOut ts v r`: the text `v`, followed by `r`, consists of error-free lexemes of the tokens `ts`, each after a gap. -/
inductive LaidOut : List Token → Str → Str → Prop
  | nil {r : Str} : LaidOut [] [] r
  | cons {t : Token} {ts : List Token} {g w v r : Str} (hg : Gap g (w ++ (v ++ r))) (hw : Reads t w 0 (v ++ r)) (h : LaidOut ts v r) :
      LaidOut (t :: ts) (g ++ (w ++ v)) r

/-- Behind the gap at its beginning, no token can be read anywhere in `r`. -/
def NoTokenIn (r : Str) : Prop := ∃ g x, r = g ++ x ∧ Gap g x ∧ Tight x ∧ ∀ s, s <:+ x → Unreadable s

/-- The characters from `a` (inclusive) to `b` (exclusive). -/
def slice (src : Str) (a b : Nat) : Str := (src.drop a).take (b - a)

/-- From `pos` on, the characters of every span spell its token without errors, and between spans there are gaps. -/
inductive Located (src : Str) : Nat → List (Token × Span) → Prop
  | nil {pos : Nat} : Located src pos []
  | cons {pos a b : Nat} {t : Token} {ts : List (Token × Span)} (h1 : pos ≤ a) (h2 : a ≤ b) (hg : Gap (slice src pos a) (src.drop a))
      (hw : Lexeme t (slice src a b) 0) (h : Located src b ts) : Located src pos ((t, ⟨a, b⟩) :: ts)

/-- A source with CRLF line ends for one with LF line ends. -/
def crlf (src : Str) : Str := src.flatMap fun c => if c = '\n' then c!"\r\n" else [c]

end Seiren.Spec
