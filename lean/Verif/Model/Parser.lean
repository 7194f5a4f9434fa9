import Verif.Model.Lexer
/-!
# Model of the token parser in `src/parser.rs`

Combinators as described in `Verif/Model/Lexer.lean`.  A parser is a function from the remaining tokens to
`none` (failure) or the output and the remaining tokens.  Spans are only used for error messages and are dropped; what the errors say is
modelled in `Verif/Model/ParseErrors.lean`.
-/

namespace Seiren

/-- The type of a backtracking parser over tokens. -/
abbrev P (α : Type) := List Token → Option (α × List Token)

/-- parser.rs:171-174 `ident`. -/
def pIdent : P Str
  | .ident s :: ts => some (s, ts)
  | _ => none

/-- `just(t)`. -/
def pJust (t : Token) : P Unit
  | t' :: ts => if t = t' then some ((), ts) else none
  | [] => none

/-- parser.rs:176 `separator`. -/
def isSep (t : Token) : Bool := t == .newline || t == .ctrl ';'

/-- parser.rs:176 `separator`, as a parser. -/
def pSep : P Unit
  | t :: ts => if isSep t then some ((), ts) else none
  | [] => none

/-- parser.rs:178 `pad`: any number of separators; never fails. -/
def skipPad (ts : List Token) : List Token := ts.dropWhile isSep

/-- parser.rs:184-189 `entity_field_type`. -/
def pFieldType : P EntityFieldType
  | .int :: ts => some (.int, ts)
  | .uuid :: ts => some (.uuid, ts)
  | .text :: ts => some (.text, ts)
  | .timestamp :: ts => some (.timestamp, ts)
  | _ => none

/-- parser.rs:191-194 `entity_field_key`. -/
def pFieldKey : P EntityFieldKey
  | .pk :: ts => some (.primaryKey, ts)
  | .fk :: ts => some (.foreignKey, ts)
  | _ => none

/-- `.or_not()`: never fails. -/
def pOrNot {α : Type} (p : P α) (ts : List Token) : Option α × List Token :=
  match p ts with
  | some (a, rest) => (some a, rest)
  | none => (none, ts)

/-- parser.rs:196-204 `entity`.  The `.` is mandatory, the identifier after it is optional. -/
def pEntity : P EntityPath := fun ts => do
  let (table, ts) ← pIdent ts
  let (_, ts) ← pJust (.ctrl '.') ts
  match pOrNot pIdent ts with
  | (some f, ts) => some (.field table f, ts)
  | (none, ts) => some (.entity table, ts)

/-- parser.rs:206-209 `entity_field`. -/
def pEntityField : P EntityField := fun ts => do
  let (name, ts) ← pIdent ts
  let (ty, ts) ← pFieldType ts
  let (key, ts) := pOrNot pFieldKey ts
  some (⟨name, ty, key⟩, ts)

/-- parser.rs:213-219 and 255-261: `separator.ignore_then(pad).ignore_then(item).repeated()`.  Every iteration
consumes a separator, so the number of tokens is enough fuel. -/
def pSepItems {α : Type} (item : P α) : Nat → List Token → List α × List Token
  | 0, ts => ([], ts)
  | fuel + 1, ts =>
    match pSep ts with
    | none => ([], ts)
    | some (_, rest) =>
      match item (skipPad rest) with
      | none => ([], ts)
      | some (a, rest) =>
        let (as, rest) := pSepItems item fuel rest
        (a :: as, rest)

/-- parser.rs:211-220,222 and 253-263: `item.chain(…repeated()).or_not()`, mapped to a possibly empty list. -/
def pItems {α : Type} (item : P α) (ts : List Token) : List α × List Token :=
  match item ts with
  | none => ([], ts)
  | some (a, rest) =>
    let (as, rest) := pSepItems item rest.length rest
    (a :: as, rest)

/-- parser.rs:211-222 `entity_fields`. -/
def pEntityFields (ts : List Token) : List EntityField × List Token :=
  let (fs, ts) := pItems pEntityField (skipPad ts)
  (fs, skipPad ts)

/-- parser.rs:224-237 `entity_definition`. -/
def pEntityDefinition : P EntityDefinition := fun ts => do
  let (name, ts) ← pIdent ts
  let (_, ts) ← pJust (.ctrl '{') (skipPad ts)
  let (fields, ts) := pEntityFields ts
  let (_, ts) ← pJust (.ctrl '}') ts
  some (⟨name, fields⟩, ts)

/-- parser.rs:239-246 `relation`. -/
def pRelation : P EntityRelation := fun ts => do
  let (a, ts) ← pEntity ts
  let (_, ts) ← pJust .edge (skipPad ts)
  let (b, ts) ← pEntity (skipPad ts)
  some (⟨a, b⟩, ts)

/-- parser.rs:248-251 `module_entry`. -/
def pModuleEntry : P ModuleEntry := fun ts =>
  match pEntityDefinition ts with
  | some (d, ts) => some (.definition d, ts)
  | none =>
    match pRelation ts with
    | some (r, ts) => some (.relation r, ts)
    | none => none

/-- parser.rs:253-263 `module_entries`. -/
def pModuleEntries (ts : List Token) : List ModuleEntry × List Token := pItems pModuleEntry ts

/-- parser.rs:265-280: the whole module; the tokens after it are left over. -/
def pModule : P Module := fun ts => do
  let (_, ts) ← pJust .erd (skipPad ts)
  let ts := skipPad ts
  -- 267 `ident.padded_by(pad).or_not()`
  let (name, ts) := pOrNot (fun ts => (pIdent (skipPad ts)).map fun (s, ts) => (s, skipPad ts)) ts
  let (_, ts) ← pJust (.ctrl '{') ts
  let (entries, ts) := pModuleEntries (skipPad ts)
  let ts := skipPad ts
  let (_, ts) ← pJust (.ctrl '}') ts
  -- 272-280: `Module::new` and `add_entry` for every entry
  some (entries.foldl Module.addEntry (Module.new name), skipPad ts)

/-- A parser error (`Simple<Token>`); for what it reports see `Verif/Model/ParseErrors.lean`. -/
inductive ParseError where
  | unexpected
  deriving DecidableEq, Repr

/-- parser.rs:83-84 `erd_module_parser().parse_recovery(…)`.  No combinator of this parser recovers or validates,
so it either succeeds without errors or fails with exactly one. -/
def parseTokens (ts : List Token) : Option Module × List ParseError :=
  match pModule ts with
  | some (m, _) => (some m, [])
  | none => (none, [.unexpected])

/-- parser.rs:74 `ParseResult`. -/
abbrev ParseResult := Option Module × List LexError × List ParseError

/-- parser.rs:76-90 `parse`. -/
def parse (src : Str) : ParseResult :=
  match tokenize src with
  | (some tokens, errs) =>
    let (ast, parseErrs) := parseTokens (tokens.map Prod.fst)
    (ast, errs, parseErrs)
  | (none, errs) => (none, errs, [])

end Seiren
