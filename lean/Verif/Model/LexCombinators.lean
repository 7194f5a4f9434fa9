import Verif.Model.Reports
/-!
# The tokenizer of `src/parser.rs`, combinator by combinator

`Verif/Model/Lexer.lean` and `Verif/Model/Reports.lean` say what the tokenizer does.  Here parser.rs:92-168 is transcribed
literally: one definition for each combinator of chumsky 0.8 that is used, and the tokenizer composed of them as in the source.
`Verif/Props/LexCombinators.lean` proves that both agree (C84), so of chumsky only the single combinators have to be trusted, not what
their composition does.

A parser takes the remaining characters.  It returns the errors that were emitted on the way, and either an error, or the output, the
alternative error (what would have had to come for a longer match) and the remaining characters: chumsky's
`(Vec<Located>, Result<(O, Option<Located>), Located>)`.  As in `Verif/Model/Reports.lean` the place of an error is given by the number of
characters that are left.  Where details of chumsky are not documented they are a parameter (`Policy`), and the theorems hold for
all of its values.
-/

namespace Seiren

/-- An error that is emitted: the failure of an attempt from which the parser recovered, or a custom one (`emit(Simple::custom(…))`). -/
inductive Emitted where
  | failed (e : CharError)
  | custom (span : Span) (message : Str)
  deriving DecidableEq, Repr

/-- A parser of characters. -/
abbrev K (α : Type) := List Char → List Emitted × Except CharError (α × Option CharError × List Char)

/-- What is left open about chumsky. -/
structure Policy where
  /-- `a.or(b)`, if both succeed but have emitted these errors: whether the first is taken. -/
  takeFirst : List Emitted → List Emitted → Bool
  /-- `a.or(b)`, if both fail: which emitted errors are kept. -/
  failedErrors : List Emitted → List Emitted → List Emitted
  /-- `a.or(b)`, if `a` fails and `b` succeeds: whether the error of `a` becomes part of the alternative. -/
  mergeAlt : Bool
  /-- `text::keyword`, if another word is found: where and with which expectations it fails. -/
  keywordError : List Char → CharError
  /-- `recover_with`: whether the error that was recovered from is emitted before the errors emitted by the attempt that
  succeeds, or behind them. -/
  failureFirst : Bool

/-- chumsky `Located::max` with an optional argument. -/
def CharError.maxOpt (a : CharError) : Option CharError → CharError
  | none => a
  | some b => a.max b

/-- chumsky `merge_alts`. -/
def mergeCharAlts : Option CharError → Option CharError → Option CharError
  | none, b => b
  | some a, b => some (a.maxOpt b)

/-- The loop of `just(…)`: all characters in turn. -/
def kJustLoop : Str → List Char → Except CharError (List Char)
  | [], cs => .ok cs
  | p :: _, [] => .error ⟨0, [p]⟩
  | p :: ps, c :: cs => if p = c then kJustLoop ps cs else .error ⟨(c :: cs).length, [p]⟩

/-- `just("…")`, `just('…')`. -/
def kJust (s : Str) : K Str := fun cs =>
  match kJustLoop s cs with
  | .ok rest => ([], .ok (s, none, rest))
  | .error e => ([], .error e)

/-- `one_of("…")`. -/
def kOneOf (ps : Str) : K Char
  | [] => ([], .error ⟨0, ps⟩)
  | c :: cs => if c ∈ ps then ([], .ok (c, none, cs)) else ([], .error ⟨(c :: cs).length, ps⟩)

/-- `filter(f)`. -/
def kFilter (f : Char → Bool) : K Char
  | [] => ([], .error ⟨0, []⟩)
  | c :: cs => if f c then ([], .ok (c, none, cs)) else ([], .error ⟨(c :: cs).length, []⟩)

/-- `.map(f)`, `.to(x)`, `.collect()`. -/
def kMap {α β : Type} (f : α → β) (p : K α) : K β := fun cs =>
  match p cs with
  | (em, .ok (a, alt, rest)) => (em, .ok (f a, alt, rest))
  | (em, .error e) => (em, .error e)

/-- `.then(q)`. -/
def kThen {α β : Type} (p : K α) (q : K β) : K (α × β) := fun cs =>
  match p cs with
  | (em, .error e) => (em, .error e)
  | (em, .ok (a, alt, rest)) =>
    match q rest with
    | (em', .error e) => (em ++ em', .error (e.maxOpt alt))
    | (em', .ok (b, alt', rest')) => (em ++ em', .ok ((a, b), mergeCharAlts alt alt', rest'))

/-- `.ignore_then(q)`. -/
def kIgnoreThen {α β : Type} (p : K α) (q : K β) : K β := kMap Prod.snd (kThen p q)

/-- `.then_ignore(q)`. -/
def kThenIgnore {α β : Type} (p : K α) (q : K β) : K α := kMap Prod.fst (kThen p q)

/-- `.padded_by(q)`. -/
def kPaddedBy {α β : Type} (p : K α) (q : K β) : K α := kThenIgnore (kIgnoreThen q p) q

/-- `a.or(b)`: the first alternative is final only if it succeeds without emitting errors. -/
def kOr {α : Type} (pol : Policy) (a b : K α) : K α := fun cs =>
  match a cs with
  | ([], .ok r) => ([], .ok r)
  | (em, .ok r) =>
    match b cs with
    | (em', .ok r') => if em'.isEmpty || !pol.takeFirst em em' then (em', .ok r') else (em, .ok r)
    | (_, .error _) => (em, .ok r)
  | (em, .error e) =>
    match b cs with
    | (em', .ok (x, alt, rest)) => (em', .ok (x, if pol.mergeAlt then mergeCharAlts (some e) alt else alt, rest))
    | (em', .error e') => (pol.failedErrors em em', .error (e.max e'))

/-- `choice((a, b, …))`: the first that succeeds.  The alternatives are given by the first and the list of the others. -/
def kChoice {α : Type} (p : K α) : List (K α) → K α
  | [], cs => p cs
  | r :: rs, cs =>
    match p cs with
    | (em, .ok x) => (em, .ok x)
    | (_, .error e) =>
      match kChoice r rs cs with
      | (em, .ok x) => (em, .ok x)
      | (_, .error e') => ([], .error (e.max e'))

/-- The loop of `.repeated().at_least(min).at_most(max)`: the number of outputs and the alternative so far are given. -/
def kRepeatedLoop {α : Type} (p : K α) (min : Nat) (max : Option Nat) : Nat → Nat → Option CharError → K (List α)
  | 0, _, alt, cs => ([], .ok ([], alt, cs))
  | fuel + 1, n, alt, cs =>
    if max = some n then ([], .ok ([], alt, cs))
    else match p cs with
      | (em, .error e) => if n < min then (em, .error e) else ([], .ok ([], mergeCharAlts alt (some e), cs))
      | (em, .ok (a, alt', rest)) =>
        match kRepeatedLoop p min max fuel (n + 1) (mergeCharAlts alt alt') rest with
        | (em', .ok (as, alt'', rest')) => (em ++ em', .ok (a :: as, alt'', rest'))
        | (em', .error e) => (em ++ em', .error e)

/-- `.repeated()`.  Every iteration of the parsers repeated here consumes a character (`C84_progress`), so the number of characters plus
one is enough fuel. -/
def kRepeated {α : Type} (p : K α) : K (List α) := fun cs => kRepeatedLoop p 0 none (cs.length + 1) 0 none cs

/-- `.repeated().exactly(n)`. -/
def kExactly {α : Type} (p : K α) (n : Nat) : K (List α) := fun cs => kRepeatedLoop p n (some n) (cs.length + 1) 0 none cs

/-- `.try_map(f)`; the error is that of the policy (it is only used in `text::keyword`). -/
def kTryMap {α β : Type} (err : List Char → CharError) (f : α → Option β) (p : K α) : K β := fun cs =>
  match p cs with
  | (em, .ok (a, alt, rest)) =>
    match f a with
    | some b => (em, .ok (b, alt, rest))
    | none => (em, .error (err cs))
  | (em, .error e) => (em, .error e)

/-- The span from the characters `cs` to `rest` in a source of `total` characters. -/
def spanSince (total : Nat) (cs rest : List Char) : Span := ⟨total - cs.length, total - rest.length⟩

/-- `.map_with_span(f)`. -/
def kMapWithSpan {α β : Type} (total : Nat) (f : α → Span → β) (p : K α) : K β := fun cs =>
  match p cs with
  | (em, .ok (a, alt, rest)) => (em, .ok (f a (spanSince total cs rest), alt, rest))
  | (em, .error e) => (em, .error e)

/-- `.validate(f)`: `f` gives the output and the messages it emits with the span. -/
def kValidate {α β : Type} (total : Nat) (f : α → β × List Str) (p : K α) : K β := fun cs =>
  match p cs with
  | (em, .ok (a, alt, rest)) =>
    (em ++ (f a).2.map (fun msg => .custom (spanSince total cs rest) msg), .ok ((f a).1, alt, rest))
  | (em, .error e) => (em, .error e)

/-- The loop of `skip_then_retry_until([])`: skip a character, try again. -/
def kRetry {α : Type} (pol : Policy) (p : K α) (em : List Emitted) (e : CharError) : K α
  | [] => (em, .error e)
  | _ :: cs =>
    match p cs with
    | (em', .ok r) => (if pol.failureFirst then .failed e :: em' else em' ++ [.failed e], .ok r)
    | (_, .error _) => kRetry pol p em e cs

/-- `.recover_with(skip_then_retry_until([]))`. -/
def kRecoverWith {α : Type} (pol : Policy) (p : K α) : K α := fun cs =>
  match p cs with
  | (em, .ok r) => (em, .ok r)
  | (em, .error e) => kRetry pol p em e cs

/-- chumsky `text::ident()`. -/
def kIdentStr : K Str :=
  kMap (fun (c, s) => c :: s) (kThen (kFilter fun c => c.isAlpha || c == '_') (kRepeated (kFilter fun c => c.isAlphanum || c == '_')))

/-- chumsky `text::keyword(k)`. -/
def kKeywordStr (pol : Policy) (k : Str) : K Unit := kTryMap pol.keywordError (fun s => if s = k then some () else none) kIdentStr

/-- parser.rs:93. -/
def kEdge : K Token := kMap (fun _ => .edge) (kJust c!"o--o")

/-- parser.rs:94. -/
def kCtrl : K Token := kMap .ctrl (kOneOf c!"{};.")

/-- parser.rs:95-98. -/
def kNewline : K Token := kChoice (kMap (fun _ => .newline) (kJust c!"\n")) [kMap (fun _ => .newline) (kJust c!"\r\n")]

/-- parser.rs:99-107. -/
def kKeyword (pol : Policy) : K Token :=
  kChoice (kMap (fun _ => .erd) (kKeywordStr pol c!"erd"))
    [kMap (fun _ => .int) (kKeywordStr pol c!"int"),
     kMap (fun _ => .uuid) (kKeywordStr pol c!"uuid"),
     kMap (fun _ => .text) (kKeywordStr pol c!"text"),
     kMap (fun _ => .timestamp) (kKeywordStr pol c!"timestamp"),
     kMap (fun _ => .pk) (kKeywordStr pol c!"PK"),
     kMap (fun _ => .fk) (kKeywordStr pol c!"FK")]

/-- `u32::from_str_radix(s, 16)` for hexadecimal digits. -/
def fromHex (s : Str) : Nat := s.foldl (fun n c => n * 16 + (hexVal c).getD 0) 0

/-- parser.rs:124-131: the closure of `validate`. -/
def validateUnicode (digits : Str) : Char × List Str :=
  if (fromHex digits).isValidChar then (Char.ofNat (fromHex digits), []) else (Char.ofNat 0xFFFD, [c!"invalid unicode character"])

/-- `just(c)` for one character, with that character as output. -/
def kChar (c : Char) : K Char := kMap (fun _ => c) (kJust [c])

/-- `just(c).to(d)`. -/
def kCharTo (c d : Char) : K Char := kMap (fun _ => d) (kJust [c])

/-- parser.rs:109-133. -/
def kEscape (pol : Policy) (total : Nat) : K Char :=
  kIgnoreThen (kChar '\\') <|
    kOr pol (kOr pol (kOr pol (kOr pol (kOr pol (kOr pol (kOr pol (kOr pol (kOr pol
      (kChar '\\')
      (kChar '/'))
      (kChar '"'))
      (kChar '`'))
      (kCharTo 'b' '\x08'))
      (kCharTo 'f' '\x0C'))
      (kCharTo 'n' '\n'))
      (kCharTo 'r' '\r'))
      (kCharTo 't' '\t'))
      (kIgnoreThen (kChar 'u') (kValidate total validateUnicode (kExactly (kFilter fun c => (hexVal c).isSome) 4)))

/-- parser.rs:135. -/
def kIdent : K Token := kMap .ident kIdentStr

/-- parser.rs:138-142. -/
def kQuotedIdent (pol : Policy) (total : Nat) : K Token :=
  kMap .ident <| kThenIgnore
    (kIgnoreThen (kJust c!"`") (kRepeated (kOr pol (kFilter fun c => c != '\\' && c != '`') (kEscape pol total))))
    (kChar '`')

/-- parser.rs:145-150, without the recovery. -/
def kToken (pol : Policy) (total : Nat) : K Token :=
  kOr pol (kOr pol (kOr pol (kOr pol (kOr pol kEdge (kKeyword pol)) kIdent) (kQuotedIdent pol total)) kCtrl) kNewline

/-- parser.rs:155-157. -/
def kSpaces : K Str := kRepeated (kOneOf c!" \t")

/-- parser.rs:158-161. -/
def kComment : K Str := kPaddedBy (kIgnoreThen (kJust c!"//") (kRepeated (kFilter fun c => c != '\n'))) kSpaces

/-- parser.rs:163-166: one iteration. -/
def kStep (pol : Policy) (total : Nat) : K (Token × Span) :=
  kPaddedBy (kPaddedBy (kMapWithSpan total Prod.mk (kRecoverWith pol (kToken pol total))) (kRepeated kComment)) kSpaces

/-- parser.rs:92-168. -/
def kTokenizer (pol : Policy) (total : Nat) : K (List (Token × Span)) := kRepeated (kStep pol total)

/-- What is told by an emitted error in a source. -/
def Emitted.report (src : Str) : Emitted → LexReport
  | .failed e => .unexpected ⟨src.length - e.left, src.length - e.left + 1⟩ (src.drop (src.length - e.left)).head? e.expected
  | .custom span message => .custom span message

/-- parser.rs:77 `tokenizer().parse_recovery(src)`: the output, if there is one, and the errors; a failure is the last of them. -/
def kParseRecovery (pol : Policy) (src : Str) : Option (List (Token × Span)) × List LexReport :=
  match kTokenizer pol src.length src with
  | (em, .ok (ts, _, _)) => (some ts, em.map (Emitted.report src))
  | (em, .error e) => (none, em.map (Emitted.report src) ++ [(Emitted.failed e).report src])

end Seiren
