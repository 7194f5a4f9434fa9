import Verif.Model.Parser
/-!
# Model of the errors of the token parser in `src/parser.rs`

`Verif/Model/Parser.lean` only says whether the parser fails.  Here the same parser is modelled together with the error it
reports, combinator by combinator.  chumsky 0.8.0 works as follows (its source is not in the sandbox; this is part of the
trusted base):

* a parser either fails with a located error, or succeeds with an output and possibly an *alternative error*: what
  would have had to come for a longer match;
* of two errors the one further to the right is kept; if both are at the same token, the sets of expected tokens are united
  (`Located::max`, `Simple::merge`);
* `p.then(q)`: if `q` fails, the maximum of its error and the alternative of `p`; if it succeeds, the maximum of
  the two alternatives;
* `p.repeated()`: the error of the iteration that fails becomes the alternative, together with those of the earlier ones;
* `p.or_not()`: an error of `p` becomes the alternative;
* `choice`: the first alternative that succeeds, and only its alternative error; if all fail, the maximum of the errors;
* `just(t)` expects `t`; the error of `ident` (parser.rs:171-174) has an empty set of expected tokens.

That erasing the errors gives the parser of `Verif/Model/Parser.lean` is proved (`lModule_erase`).
-/

namespace Seiren

/-- chumsky's `Located<Token, Simple<Token>>`.  The position is given by the number of tokens from the unexpected token
(included) to the end, so the smaller `left`, the further to the right the error.  The token found there and its
span are determined by the position (`ParseReport`).  `expected` is a `HashSet` in chumsky: only membership matters. -/
structure Located where
  left : Nat
  expected : List Token
  deriving DecidableEq, Repr

/-- chumsky `Located::max`. -/
def Located.max (a b : Located) : Located :=
  if a.left < b.left then a
  else if b.left < a.left then b
  else ⟨a.left, a.expected ++ b.expected⟩

/-- chumsky `Located::max` with an optional argument. -/
def Located.maxOpt (a : Located) : Option Located → Located
  | none => a
  | some b => a.max b

/-- chumsky `merge_alts`. -/
def mergeAlts : Option Located → Option Located → Option Located
  | none, b => b
  | some a, b => some (a.maxOpt b)

/-- A parser that reports errors: an error, or the output, the alternative error and the remaining tokens. -/
abbrev LP (α : Type) := List Token → Except Located (α × Option Located × List Token)

/-- `just(t)`. -/
def lJust (t : Token) : LP Unit
  | t' :: ts => if t = t' then .ok ((), none, ts) else .error ⟨(t' :: ts).length, [t]⟩
  | [] => .error ⟨0, [t]⟩

/-- parser.rs:171-174 `ident`: nothing is listed as expected (`Vec::new()`); at the end of the input chumsky's
`filter_map` lists nothing either. -/
def lIdent : LP Str
  | .ident s :: ts => .ok (s, none, ts)
  | ts => .error ⟨ts.length, []⟩

/-- `.map(f)` (and `.to(x)`). -/
def lMap {α β : Type} (f : α → β) (p : LP α) : LP β := fun ts =>
  match p ts with
  | .ok (a, alt, rest) => .ok (f a, alt, rest)
  | .error e => .error e

/-- `.then(q)`; `ignore_then`, `then_ignore` and `chain` are this with a `map`. -/
def lThen {α β : Type} (p : LP α) (q : LP β) : LP (α × β) := fun ts =>
  match p ts with
  | .error e => .error e
  | .ok (a, alt, rest) =>
    match q rest with
    | .error e => .error (e.maxOpt alt)
    | .ok (b, alt', rest') => .ok ((a, b), mergeAlts alt alt', rest')

/-- `.ignore_then(q)`. -/
def lIgnoreThen {α β : Type} (p : LP α) (q : LP β) : LP β := lMap Prod.snd (lThen p q)

/-- `.then_ignore(q)`. -/
def lThenIgnore {α β : Type} (p : LP α) (q : LP β) : LP α := lMap Prod.fst (lThen p q)

/-- `choice((p, q))`. -/
def lChoice {α : Type} (p q : LP α) : LP α := fun ts =>
  match p ts with
  | .ok r => .ok r
  | .error e =>
    match q ts with
    | .ok r => .ok r
    | .error e' => .error (e'.max e)

/-- `.or_not()`. -/
def lOrNot {α : Type} (p : LP α) : LP (Option α) := fun ts =>
  match p ts with
  | .ok (a, alt, rest) => .ok (some a, alt, rest)
  | .error e => .ok (none, some e, ts)

/-- `.repeated()`, with the alternative collected so far.  Every iteration of the parsers repeated here consumes a token. -/
def lRepeatedLoop {α : Type} (p : LP α) : Nat → Option Located → List Token → List α × Option Located × List Token
  | 0, alt, ts => ([], alt, ts)
  | fuel + 1, alt, ts =>
    match p ts with
    | .error e => ([], mergeAlts alt (some e), ts)
    | .ok (a, alt', rest) =>
      let (as, alt'', rest') := lRepeatedLoop p fuel (mergeAlts alt alt') rest
      (a :: as, alt'', rest')

/-- `.repeated()`.  The number of tokens plus one is enough fuel: the last iteration fails. -/
def lRepeated {α : Type} (p : LP α) : LP (List α) := fun ts => .ok (lRepeatedLoop p (ts.length + 1) none ts)

/-- parser.rs:176 `separator`. -/
def lSep : LP Unit := lChoice (lJust .newline) (lJust (.ctrl ';'))

/-- parser.rs:178 `pad`. -/
def lPad : LP (List Unit) := lRepeated lSep

/-- `.padded_by(pad)`. -/
def lPadded {α : Type} (p : LP α) : LP α := lThenIgnore (lIgnoreThen lPad p) lPad

/-- parser.rs:184-189 `entity_field_type`; `choice` of four. -/
def lFieldType : LP EntityFieldType :=
  lChoice (lMap (fun _ => .int) (lJust .int)) <|
  lChoice (lMap (fun _ => .uuid) (lJust .uuid)) <|
  lChoice (lMap (fun _ => .text) (lJust .text)) (lMap (fun _ => .timestamp) (lJust .timestamp))

/-- parser.rs:191-194 `entity_field_key`. -/
def lFieldKey : LP EntityFieldKey :=
  lChoice (lMap (fun _ => .primaryKey) (lJust .pk)) (lMap (fun _ => .foreignKey) (lJust .fk))

/-- parser.rs:196-204 `entity`. -/
def lEntity : LP EntityPath :=
  lMap (fun | (table, some f) => .field table f | (table, none) => .entity table)
    (lThen lIdent (lIgnoreThen (lJust (.ctrl '.')) (lOrNot lIdent)))

/-- parser.rs:206-209 `entity_field`. -/
def lEntityField : LP EntityField :=
  lMap (fun ((name, ty), key) => ⟨name, ty, key⟩) (lThen (lThen lIdent lFieldType) (lOrNot lFieldKey))

/-- parser.rs:211-220 and 253-263: `item.chain(separator.ignore_then(pad).ignore_then(item).repeated()).or_not()`. -/
def lItems {α : Type} (item : LP α) : LP (Option (List α)) :=
  lOrNot (lMap (fun (a, as) => a :: as) (lThen item (lRepeated (lIgnoreThen (lIgnoreThen lSep lPad) item))))

/-- parser.rs:211-222 `entity_fields`. -/
def lEntityFields : LP (List EntityField) := lMap (fun fs => fs.getD []) (lPadded (lItems lEntityField))

/-- parser.rs:224-237 `entity_definition`. -/
def lEntityDefinition : LP EntityDefinition :=
  lMap (fun (name, fields) => ⟨name, fields⟩)
    (lThenIgnore (lThen (lThenIgnore (lThenIgnore lIdent lPad) (lJust (.ctrl '{'))) lEntityFields) (lJust (.ctrl '}')))

/-- parser.rs:239-246 `relation`. -/
def lRelation : LP EntityRelation :=
  lMap (fun (a, b) => ⟨a, b⟩) (lThen lEntity (lIgnoreThen (lPadded (lJust .edge)) lEntity))

/-- parser.rs:248-251 `module_entry`. -/
def lModuleEntry : LP ModuleEntry := lChoice (lMap .definition lEntityDefinition) (lMap .relation lRelation)

/-- parser.rs:253-263 `module_entries`. -/
def lModuleEntries : LP (List ModuleEntry) := lMap (fun es => es.getD []) (lItems lModuleEntry)

/-- parser.rs:265-280. -/
def lModule : LP Module :=
  lMap (fun (name, entries) => entries.foldl Module.addEntry (Module.new name))
    (lPadded (lThenIgnore (lThen (lThenIgnore (lIgnoreThen (lPadded (lJust .erd)) (lOrNot (lPadded lIdent))) (lJust (.ctrl '{')))
      (lPadded lModuleEntries)) (lJust (.ctrl '}'))))

/-- What main.rs:36-93 reads from an error of the parser (`Simple<Token>`): `span()`, `found()`, `expected()`.
The reason is always `Unexpected`. -/
structure ParseReport where
  span : Span
  found : Option Token
  expected : List Token
  deriving DecidableEq, Repr

/-- parser.rs:80-84: the report of a located error in a stream of tokens with spans; at the end of the stream the
span is `eoi = len..len + 1`. -/
def parseReport (len : Nat) (ts : List (Token × Span)) (e : Located) : ParseReport :=
  match ts[ts.length - e.left]? with
  | some (t, span) => ⟨span, some t, e.expected⟩
  | none => ⟨⟨len, len + 1⟩, none, e.expected⟩

/-- parser.rs:76-90 `parse`, with what is reported about the error of the parser. -/
def parseReports (src : Str) : Option Module × List ParseReport :=
  match tokenize src with
  | (some tokens, _) =>
    match lModule (tokens.map Prod.fst) with
    | .ok (m, _, _) => (some m, [])
    | .error e => (none, [parseReport src.length tokens e])
  | (none, _) => (none, [])

end Seiren
