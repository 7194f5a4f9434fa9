import Verif.Model.ParseErrors
import Verif.Model.Main
/-!
# Model of the errors of the tokenizer and of the reports of `src/main.rs`

`Verif/Model/Lexer.lean` only says of an error of the tokenizer that it occurs.  Here its contents are modelled (the span, what was
found and what was expected), and the text that main.rs:28-105 makes of the errors of the tokenizer and of the parser.

The errors of the combinators are those listed in `Verif/Model/ParseErrors.lean`; for characters in addition:

* `just("…")` fails at the first character that differs and expects the one it should be; `one_of` expects each of its characters;
* `filter` and `text::ident` expect nothing (their set is empty), nor does `text::keyword` where no word begins;
* a `&str` is a stream with the spans `i..i + 1`, and `len..len + 1` at the end;
* `recover_with` reports the error of the first attempt, however many characters are skipped;
* `validate` hands the span of what its parser has read to the closure.

Not modelled: the order in which a `HashSet` is listed (`ReportOf` allows every order), the escape sequences for colours (the
parameter `red`), and how ariadne prints a report with the lines of the source around it.
-/

namespace Seiren

/-- chumsky's `Located<char, Simple<char>>`: the number of characters from the unexpected one (included) to the end, and the
expected characters. -/
structure CharError where
  left : Nat
  expected : List Char
  deriving DecidableEq, Repr

/-- chumsky `Located::max`. -/
def CharError.max (a b : CharError) : CharError :=
  if a.left < b.left then a
  else if b.left < a.left then b
  else ⟨a.left, a.expected ++ b.expected⟩

/-- The error of `just("…")`, when it fails. -/
def justError : Str → List Char → CharError
  | [], cs => ⟨cs.length, []⟩
  | p :: _, [] => ⟨0, [p]⟩
  | p :: ps, c :: cs => if p = c then justError ps cs else ⟨(c :: cs).length, [p]⟩

/-- The error of `one_of("…")`, when it fails. -/
def oneOfError (ps : Str) (cs : List Char) : CharError := ⟨cs.length, ps⟩

/-- The error of `filter`, of `text::ident` and of `text::keyword` where no word begins. -/
def filterError (cs : List Char) : CharError := ⟨cs.length, []⟩

/-- parser.rs:121-123: the error of `filter(…).repeated().exactly(n)`, when it fails. -/
def digitsError : Nat → List Char → CharError
  | 0, cs => filterError cs
  | _ + 1, [] => filterError []
  | n + 1, c :: cs => if (hexVal c).isSome then digitsError n cs else filterError (c :: cs)

/-- parser.rs:110-131: the error behind the backslash, when all alternatives fail. -/
def escapeError (cs : List Char) : CharError :=
  let u := match cs with
    | 'u' :: ds => digitsError 4 ds
    | _ => justError c!"u" cs
  (justError c!"\\" cs).max <| (justError c!"/" cs).max <| (justError c!"\"" cs).max <| (justError c!"`" cs).max <|
  (justError c!"b" cs).max <| (justError c!"f" cs).max <| (justError c!"n" cs).max <| (justError c!"r" cs).max <|
  (justError c!"t" cs).max u

/-- parser.rs:139: the error of one iteration, when it fails: `filter` and `escape`. -/
def quotedCharError (cs : List Char) : CharError :=
  (filterError cs).max (match cs with
    | '\\' :: r => escapeError r
    | _ => justError c!"\\" cs)

/-- parser.rs:138-140: the error of `quoted_ident`, when it fails: the last iteration's becomes the alternative of the repetition
and is merged with that of the closing back quote. -/
def quotedError : List Char → CharError
  | '`' :: cs =>
    let rest := (lexQuotedBody cs.length cs).2.2
    (justError c!"`" rest).max (quotedCharError rest)
  | cs => justError c!"`" cs

/-- parser.rs:95-98: the error of `newline`, when it fails. -/
def newlineError (cs : List Char) : CharError := (justError c!"\n" cs).max (justError c!"\r\n" cs)

/-- parser.rs:145-150: the error of `token`, when all alternatives fail. -/
def tokenError (cs : List Char) : CharError :=
  (justError c!"o--o" cs).max <| (filterError cs).max <| (filterError cs).max <| (quotedError cs).max <|
  (oneOfError c!"{};." cs).max (newlineError cs)

/-- What main.rs:36-98 reads from an error of the tokenizer (`Simple<char>`). -/
inductive LexReport where
  | unexpected (span : Span) (found : Option Char) (expected : List Char)
  | custom (span : Span) (message : Str)
  deriving DecidableEq, Repr

/-- The report of a located error in `cs`, the end of a source of `total` characters. -/
def CharError.report (total : Nat) (cs : List Char) (e : CharError) : LexReport :=
  .unexpected ⟨total - e.left, total - e.left + 1⟩ (cs.drop (cs.length - e.left)).head? e.expected

/-- parser.rs:124-132: the errors emitted while the characters inside back quotes are read; the span is that of the four digits. -/
def quotedReports (total : Nat) : Nat → List Char → List LexReport
  | 0, _ => []
  | fuel + 1, cs =>
    match lexQuotedChar cs with
    | none => []
    | some (_, errs, rest) =>
      errs.map (fun _ => .custom ⟨total - (rest.length + 4), total - rest.length⟩ c!"invalid unicode character")
        ++ quotedReports total fuel rest

/-- The errors emitted by a token that can be read. -/
def tokenReports (total : Nat) : List Char → List LexReport
  | '`' :: cs => quotedReports total cs.length cs
  | _ => []

/-- parser.rs:153: where the recovery succeeds. -/
def recoverAt : List Char → List Char
  | [] => []
  | _ :: cs =>
    match lexToken cs with
    | some _ => cs
    | none => recoverAt cs

/-- The errors of one iteration (`lexStep`), when it succeeds. -/
def stepReports (total : Nat) (cs : List Char) : List LexReport :=
  let cs := skipBefore cs
  match lexToken cs with
  | some _ => tokenReports total cs
  | none => (tokenError cs).report total cs :: tokenReports total (recoverAt cs)

/-- The errors of all iterations (`lexLoop`). -/
def loopReports (total : Nat) : Nat → List Char → List LexReport
  | 0, _ => []
  | fuel + 1, cs =>
    match lexStep total cs with
    | none => []
    | some (_, _, rest) => stepReports total cs ++ loopReports total fuel rest

/-- parser.rs:77: the errors of the tokenizer with their contents (`lexReports_kinds`: the same errors as those of `tokenize`). -/
def lexReports (src : Str) : List LexReport := loopReports src.length src.length src

/-- parser.rs:44-72 `Display` of `Token`. -/
def Token.display : Token → Str
  | .edge => c!"o--o"
  | .ident s => s
  | .erd => c!"erd"
  | .int => c!"int"
  | .uuid => c!"uuid"
  | .text => c!"text"
  | .timestamp => c!"timestamp"
  | .pk => c!"PK"
  | .fk => c!"FK"
  | .ctrl c => '\'' :: c :: c!"'"
  | .newline => c!"'\\n'"

/-- `Simple<String>`: the errors of main.rs:30-34.  (The reason `Unclosed` of main.rs:42-66 is only produced by chumsky's
`nested_delimiters`, which is not used.)  `expected` is a set. -/
inductive SimpleError where
  | unexpected (span : Span) (found : Option Str) (expected : List Str)
  | custom (span : Span) (message : Str)
  deriving DecidableEq, Repr

/-- main.rs:32 `x.map(|c| c.to_string())`. -/
def LexReport.simple : LexReport → SimpleError
  | .unexpected span found expected => .unexpected span (found.map fun c => [c]) (expected.map fun c => [c])
  | .custom span message => .custom span message

/-- main.rs:33 `e.map(|tok| tok.to_string())`. -/
def ParseReport.simple (r : ParseReport) : SimpleError :=
  .unexpected r.span (r.found.map Token.display) (r.expected.map Token.display)

/-- main.rs:29-34 `errors`. -/
def errorsOf (src : Str) : List SimpleError :=
  (lexReports src).map LexReport.simple ++ (parseReports src).2.map ParseReport.simple

/-- A report as it is handed to ariadne: the offset it is located at, its message, and its labels with their spans. -/
structure Report where
  start : Nat
  message : Str
  labels : List (Span × Str)
  deriving DecidableEq, Repr

/-- `[…].join(", ")`. -/
def joinComma : List Str → Str
  | [] => []
  | [s] => s
  | s :: ss => s ++ (c!", " ++ joinComma ss)

/-- main.rs:39-98: the report of an error; `listed` is the set of expected tokens in the order of the `HashSet`'s iterator. -/
def SimpleError.report (red : Str → Str) (listed : List Str) : SimpleError → Report
  | .unexpected span found _ =>
    { start := span.start
      message := (if found.isSome then c!"Unexpected token in input" else c!"Unexpected end of input") ++ (c!", expected " ++
        if listed.length = 0 then c!"something else" else joinComma listed)
      labels := [(span, c!"Unexpected token " ++ red (found.getD c!"end of file"))] }
  | .custom span message => { start := span.start, message := message, labels := [(span, red message)] }

/-- The set of expected tokens. -/
def SimpleError.expected : SimpleError → List Str
  | .unexpected _ _ expected => expected
  | .custom _ _ => []

/-- `r` is a report the program may print for the error `e`: the expected tokens are listed in any order, each once. -/
def ReportOf (red : Str → Str) (e : SimpleError) (r : Report) : Prop :=
  ∃ listed, listed.Nodup ∧ (∀ s, s ∈ listed ↔ s ∈ e.expected) ∧ r = e.report red listed

/-- main.rs:37-105: the reports a run of the program may print for a source, one for every error.  (Whether chumsky appends the error
of a recovery before or behind those emitted by the token that follows is not modelled: the reports may come in any order.) -/
def Reports (red : Str → Str) (src : Str) (rs : List Report) : Prop :=
  ∃ es, List.Perm es (errorsOf src) ∧ List.Forall₂ (ReportOf red) es rs

end Seiren
