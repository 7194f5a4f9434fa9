import Verif.Model.Erd
/-!
# Model of the tokenizer in `src/parser.rs`

The tokenizer is written with the chumsky 0.8.0 combinators.  Their behaviour is modelled as follows
(chumsky's source is not in the sandbox; this is the documented behaviour, and part of the trusted base):

* `just`, `one_of`, `filter`, `then`, `ignore_then`, `map`, `to`, `padded_by`: as usual, fail without effect;
* `a.or(b)`, `choice`, `or_not`: ordered choice with full backtracking;
* `p.repeated()`: greedy; the first failing iteration is undone and ends the repetition successfully;
* `p.recover_with(skip_then_retry_until([]))`: if `p` fails, skip one character and retry `p`, skipping one more
  character after each failure; if the end of input is reached without success the parser fails;
* `validate`: may emit an error although the parser succeeds;
* `parse_recovery` returns the output with the emitted errors, and does *not* require the end of the input.

Here an error is only its kind and the position at which the failing token starts; what is reported about it (span,
expected set) is in `Verif/Model/Reports.lean`.
-/

namespace Seiren

/-- parser.rs:45-72 `enum Token`. -/
inductive Token where
  | edge
  | ident (s : Str)
  | erd
  | int
  | uuid
  | text
  | timestamp
  | pk
  | fk
  | ctrl (c : Char)
  | newline
  deriving DecidableEq, Repr

/-- parser.rs:42 `Span = Range<usize>`, in characters (chumsky numbers the `char`s of a `&str`). -/
structure Span where
  start : Nat
  stop : Nat
  deriving DecidableEq, Repr

/-- A tokenizer error (`Simple<char>`), reduced to its kind. -/
inductive LexError where
  /-- Characters starting at this offset were skipped by the recovery of parser.rs:153. -/
  | unexpected (pos : Nat)
  /-- parser.rs:127 "invalid unicode character". -/
  | invalidUnicode
  deriving DecidableEq, Repr

/-- `text::ident` first character: ASCII letter or `_`. -/
def isIdentStart (c : Char) : Bool := c.isAlpha || c == '_'

/-- `text::ident` later characters: ASCII letter, ASCII digit or `_`. -/
def isIdentContinue (c : Char) : Bool := c.isAlphanum || c == '_'

/-- chumsky `text::ident()`: the longest C-style identifier. -/
def lexIdentStr : List Char → Option (Str × List Char)
  | [] => none
  | c :: cs =>
    if isIdentStart c then some (c :: cs.takeWhile isIdentContinue, cs.dropWhile isIdentContinue) else none

/-- `just("…")` on a string literal. -/
def lexJust : Str → List Char → Option (List Char)
  | [], cs => some cs
  | _ :: _, [] => none
  | p :: ps, c :: cs => if p = c then lexJust ps cs else none

/-- parser.rs:93 `edge`. -/
def lexEdge (cs : List Char) : Option (Token × List Char) := (lexJust c!"o--o" cs).map (Token.edge, ·)

/-- chumsky `text::keyword(k)`: an identifier that is equal to `k`. -/
def lexKeywordStr (k : Str) (t : Token) (cs : List Char) : Option (Token × List Char) :=
  match lexIdentStr cs with
  | some (s, rest) => if s = k then some (t, rest) else none
  | none => none

/-- parser.rs:99-107 `keyword`. -/
def lexKeyword (cs : List Char) : Option (Token × List Char) :=
  lexKeywordStr c!"erd" .erd cs
  <|> lexKeywordStr c!"int" .int cs
  <|> lexKeywordStr c!"uuid" .uuid cs
  <|> lexKeywordStr c!"text" .text cs
  <|> lexKeywordStr c!"timestamp" .timestamp cs
  <|> lexKeywordStr c!"PK" .pk cs
  <|> lexKeywordStr c!"FK" .fk cs

/-- parser.rs:135 `ident`. -/
def lexIdent (cs : List Char) : Option (Token × List Char) :=
  (lexIdentStr cs).map fun (s, rest) => (.ident s, rest)

/-- `char::is_digit(16)` with the digit's value. -/
def hexVal (c : Char) : Option Nat :=
  if '0' ≤ c ∧ c ≤ '9' then some (c.toNat - 48)
  else if 'a' ≤ c ∧ c ≤ 'f' then some (c.toNat - 87)
  else if 'A' ≤ c ∧ c ≤ 'F' then some (c.toNat - 55)
  else none

/-- parser.rs:125-130: `char::from_u32(n)`, or U+FFFD and an emitted error. -/
def unicodeChar (n : Nat) : Char × List LexError :=
  if n.isValidChar then (Char.ofNat n, []) else (Char.ofNat 0xFFFD, [.invalidUnicode])

/-- parser.rs:109-133 `escape`, after the backslash: the decoded character, the emitted errors, the rest. -/
def lexEscape : List Char → Option (Char × List LexError × List Char)
  | '\\' :: cs => some ('\\', [], cs)
  | '/' :: cs => some ('/', [], cs)
  | '"' :: cs => some ('"', [], cs)
  | '`' :: cs => some ('`', [], cs)
  | 'b' :: cs => some ('\x08', [], cs)
  | 'f' :: cs => some ('\x0C', [], cs)
  | 'n' :: cs => some ('\n', [], cs)
  | 'r' :: cs => some ('\r', [], cs)
  | 't' :: cs => some ('\t', [], cs)
  | 'u' :: a :: b :: c :: d :: cs =>
    match hexVal a, hexVal b, hexVal c, hexVal d with
    | some a, some b, some c, some d =>
      let (ch, errs) := unicodeChar (((a * 16 + b) * 16 + c) * 16 + d)
      some (ch, errs, cs)
    | _, _, _, _ => none
  | _ => none

/-- parser.rs:139: one iteration of `filter(|c| *c != '\\' && *c != '`').or(escape)`. -/
def lexQuotedChar : List Char → Option (Char × List LexError × List Char)
  | [] => none
  | c :: cs => if c ≠ '\\' ∧ c ≠ '`' then some (c, [], cs) else if c = '\\' then lexEscape cs else none

/-- parser.rs:139 `….repeated()`.  Every iteration consumes a character, so the length of the input is
enough fuel (`lexQuotedBody_fuel` in `Verif/Proofs/Lexer.lean`). -/
def lexQuotedBody : Nat → List Char → Str × List LexError × List Char
  | 0, cs => ([], [], cs)
  | fuel + 1, cs =>
    match lexQuotedChar cs with
    | none => ([], [], cs)
    | some (c, errs, rest) =>
      let (s, errs', rest') := lexQuotedBody fuel rest
      (c :: s, errs ++ errs', rest')

/-- parser.rs:138-142 `quoted_ident`. -/
def lexQuotedIdent (cs : List Char) : Option (Token × List LexError × List Char) :=
  match cs with
  | '`' :: cs =>
    match lexQuotedBody cs.length cs with
    | (s, errs, '`' :: rest) => some (.ident s, errs, rest)
    | _ => none
  | _ => none

/-- parser.rs:94 `ctrl`. -/
def lexCtrl : List Char → Option (Token × List Char)
  | c :: cs => if c = '{' ∨ c = '}' ∨ c = ';' ∨ c = '.' then some (.ctrl c, cs) else none
  | [] => none

/-- parser.rs:95-98 `newline`. -/
def lexNewline : List Char → Option (Token × List Char)
  | '\n' :: cs => some (.newline, cs)
  | '\r' :: '\n' :: cs => some (.newline, cs)
  | _ => none

/-- No emitted errors. -/
def noErr (r : Option (Token × List Char)) : Option (Token × List LexError × List Char) :=
  r.map fun (t, rest) => (t, [], rest)

/-- parser.rs:145-150 `token`, before the recovery. -/
def lexToken (cs : List Char) : Option (Token × List LexError × List Char) :=
  noErr (lexEdge cs)
  <|> noErr (lexKeyword cs)
  <|> noErr (lexIdent cs)
  <|> lexQuotedIdent cs
  <|> noErr (lexCtrl cs)
  <|> noErr (lexNewline cs)

/-- parser.rs:153, after `lexToken` failed: skip one character and retry, until success or the end of input. -/
def lexRecover : List Char → Option (Token × List LexError × List Char)
  | [] => none
  | _ :: cs =>
    match lexToken cs with
    | some r => some r
    | none => lexRecover cs

/-- parser.rs:155-157 `spaces`: blanks and tabs. -/
def skipSpaces (cs : List Char) : List Char := cs.dropWhile fun c => c == ' ' || c == '\t'

/-- parser.rs:158-161 `comment`, padded by spaces on both sides; it ends before the newline. -/
def lexComment (cs : List Char) : Option (List Char) :=
  match skipSpaces cs with
  | '/' :: '/' :: cs => some (skipSpaces (cs.dropWhile fun c => c != '\n'))
  | _ => none

/-- parser.rs:165 `comment.repeated()`; every comment consumes two characters, so the length is enough fuel. -/
def skipComments : Nat → List Char → List Char
  | 0, cs => cs
  | fuel + 1, cs =>
    match lexComment cs with
    | none => cs
    | some rest => skipComments fuel rest

/-- The padding in front of a token: spaces, then comments (parser.rs:165-166). -/
def skipBefore (cs : List Char) : List Char :=
  let cs := skipSpaces cs
  skipComments cs.length cs

/-- The padding behind a token: comments, then spaces (parser.rs:165-166). -/
def skipAfter (cs : List Char) : List Char := skipSpaces (skipComments cs.length cs)

/-- parser.rs:163-166: one iteration.  `total` is the number of characters of the source; an offset is `total`
minus the number of characters left.  `none`: the iteration failed. -/
def lexStep (total : Nat) (cs : List Char) : Option ((Token × Span) × List LexError × List Char) :=
  let cs := skipBefore cs
  match lexToken cs with
  | some (t, errs, rest) => some ((t, ⟨total - cs.length, total - rest.length⟩), errs, skipAfter rest)
  | none =>
    match lexRecover cs with
    | some (t, errs, rest) =>
      some ((t, ⟨total - cs.length, total - rest.length⟩),
        .unexpected (total - cs.length) :: errs, skipAfter rest)
    | none => none

/-- parser.rs:167 `.repeated()`: iterate until the first failure.  Every iteration consumes a character. -/
def lexLoop (total : Nat) : Nat → List Char → List (Token × Span) × List LexError
  | 0, _ => ([], [])
  | fuel + 1, cs =>
    match lexStep total cs with
    | none => ([], [])
    | some (t, errs, rest) =>
      let (ts, errs') := lexLoop total fuel rest
      (t :: ts, errs ++ errs')

/-- parser.rs:77 `tokenizer().parse_recovery(src)`.  `repeated()` cannot fail, so the output is always `Some`. -/
def tokenize (src : Str) : Option (List (Token × Span)) × List LexError :=
  let (ts, errs) := lexLoop src.length src.length src
  (some ts, errs)

end Seiren
