import Verif.Model.LexCombinators
import Verif.Model.ParsePolicy
/-!
# How much reading the parsers of `src/parser.rs` do

chumsky's parsers go back in the input and read parts of it again.  Here the combinators of `Verif/Model/LexCombinators.lean` (characters) and
`Verif/Model/ParsePolicy.lean` (tokens) are paired with the number of reads (`Stream::next`; reading at the end of the input counts).  What
is not counted: the work on error values, copying of outputs, peeking at spans.

The parser that runs is the one of those files, literally (`C95_same`).
-/

namespace Seiren

/-! ## Characters -/

/-- A parser of characters with the number of its reads. -/
structure Counted (α : Type) where
  run : K α
  reads : List Char → Nat

/-- The reads of `just("…")`: up to the first character that differs. -/
def justReads : Str → List Char → Nat
  | [], _ => 0
  | _ :: _, [] => 1
  | p :: ps, c :: cs => if p = c then 1 + justReads ps cs else 1

/-- `just("…")`. -/
def nJust (s : Str) : Counted Str := ⟨kJust s, justReads s⟩

/-- `one_of("…")`. -/
def nOneOf (ps : Str) : Counted Char := ⟨kOneOf ps, fun _ => 1⟩

/-- `filter(f)`. -/
def nFilter (f : Char → Bool) : Counted Char := ⟨kFilter f, fun _ => 1⟩

section
variable {α β : Type}

/-- `.map(f)`, `.to(x)`, `.collect()`. -/
def nMap (f : α → β) (p : Counted α) : Counted β := ⟨kMap f p.run, p.reads⟩

/-- The reads of what comes next, if the parser has succeeded. -/
def readsAfter (r : List Emitted × Except CharError (α × Option CharError × List Char)) (next : List Char → Nat) : Nat :=
  match r.2 with
  | .ok (_, _, rest) => next rest
  | .error _ => 0

/-- `.then(q)`. -/
def nThen (p : Counted α) (q : Counted β) : Counted (α × β) :=
  ⟨kThen p.run q.run, fun cs => p.reads cs + readsAfter (p.run cs) q.reads⟩

/-- `.ignore_then(q)`. -/
def nIgnoreThen (p : Counted α) (q : Counted β) : Counted β := nMap Prod.snd (nThen p q)

/-- `.then_ignore(q)`. -/
def nThenIgnore (p : Counted α) (q : Counted β) : Counted α := nMap Prod.fst (nThen p q)

/-- `.padded_by(q)`. -/
def nPaddedBy (p : Counted α) (q : Counted β) : Counted α := nThenIgnore (nIgnoreThen q p) q

/-- `a.or(b)`: `b` is tried unless `a` succeeds without emitting errors. -/
def nOr (pol : Policy) (a b : Counted α) : Counted α :=
  ⟨kOr pol a.run b.run, fun cs => a.reads cs + match a.run cs with | ([], .ok _) => 0 | _ => b.reads cs⟩

/-- The reads of `choice((a, b, …))`. -/
def choiceReads (p : Counted α) : List (Counted α) → List Char → Nat
  | [], cs => p.reads cs
  | r :: rs, cs => p.reads cs + match (p.run cs).2 with | .ok _ => 0 | .error _ => choiceReads r rs cs

/-- `choice((a, b, …))`. -/
def nChoice (p : Counted α) (rs : List (Counted α)) : Counted α := ⟨kChoice p.run (rs.map Counted.run), choiceReads p rs⟩

/-- The reads of a repetition (fuel, number of outputs so far). -/
def repeatedReads (p : Counted α) (max : Option Nat) : Nat → Nat → List Char → Nat
  | 0, _, _ => 0
  | fuel + 1, n, cs =>
    if max = some n then 0 else p.reads cs + readsAfter (p.run cs) (repeatedReads p max fuel (n + 1))

/-- `.repeated()`. -/
def nRepeated (p : Counted α) : Counted (List α) := ⟨kRepeated p.run, fun cs => repeatedReads p none (cs.length + 1) 0 cs⟩

/-- `.repeated().exactly(n)`. -/
def nExactly (p : Counted α) (n : Nat) : Counted (List α) :=
  ⟨kExactly p.run n, fun cs => repeatedReads p (some n) (cs.length + 1) 0 cs⟩

/-- `.try_map(f)`. -/
def nTryMap (err : List Char → CharError) (f : α → Option β) (p : Counted α) : Counted β := ⟨kTryMap err f p.run, p.reads⟩

/-- `.map_with_span(f)`. -/
def nMapWithSpan (total : Nat) (f : α → Span → β) (p : Counted α) : Counted β := ⟨kMapWithSpan total f p.run, p.reads⟩

/-- `.validate(f)`. -/
def nValidate (total : Nat) (f : α → β × List Str) (p : Counted α) : Counted β := ⟨kValidate total f p.run, p.reads⟩

/-- The reads of the loop of `skip_then_retry_until([])`: the character skipped, and the next attempt. -/
def retryReads (p : Counted α) : List Char → Nat
  | [] => 1
  | _ :: cs => 1 + p.reads cs + match (p.run cs).2 with | .ok _ => 0 | .error _ => retryReads p cs

/-- `.recover_with(skip_then_retry_until([]))`. -/
def nRecoverWith (pol : Policy) (p : Counted α) : Counted α :=
  ⟨kRecoverWith pol p.run, fun cs => p.reads cs + match (p.run cs).2 with | .ok _ => 0 | .error _ => retryReads p cs⟩

end

/-- chumsky `text::ident()`. -/
def nIdentStr : Counted Str :=
  nMap (fun (c, s) => c :: s) (nThen (nFilter fun c => c.isAlpha || c == '_') (nRepeated (nFilter fun c => c.isAlphanum || c == '_')))

/-- chumsky `text::keyword(k)`. -/
def nKeywordStr (pol : Policy) (k : Str) : Counted Unit := nTryMap pol.keywordError (fun s => if s = k then some () else none) nIdentStr

/-- parser.rs:93. -/
def nEdge : Counted Token := nMap (fun _ => .edge) (nJust c!"o--o")

/-- parser.rs:94. -/
def nCtrl : Counted Token := nMap .ctrl (nOneOf c!"{};.")

/-- parser.rs:95-98. -/
def nNewline : Counted Token := nChoice (nMap (fun _ => .newline) (nJust c!"\n")) [nMap (fun _ => .newline) (nJust c!"\r\n")]

/-- parser.rs:99-107. -/
def nKeyword (pol : Policy) : Counted Token :=
  nChoice (nMap (fun _ => .erd) (nKeywordStr pol c!"erd"))
    [nMap (fun _ => .int) (nKeywordStr pol c!"int"),
     nMap (fun _ => .uuid) (nKeywordStr pol c!"uuid"),
     nMap (fun _ => .text) (nKeywordStr pol c!"text"),
     nMap (fun _ => .timestamp) (nKeywordStr pol c!"timestamp"),
     nMap (fun _ => .pk) (nKeywordStr pol c!"PK"),
     nMap (fun _ => .fk) (nKeywordStr pol c!"FK")]

/-- `just(c)`, `just(c).to(d)`. -/
def nCharTo (c d : Char) : Counted Char := nMap (fun _ => d) (nJust [c])

/-- parser.rs:109-133. -/
def nEscape (pol : Policy) (total : Nat) : Counted Char :=
  nIgnoreThen (nCharTo '\\' '\\') <|
    nOr pol (nOr pol (nOr pol (nOr pol (nOr pol (nOr pol (nOr pol (nOr pol (nOr pol
      (nCharTo '\\' '\\')
      (nCharTo '/' '/'))
      (nCharTo '"' '"'))
      (nCharTo '`' '`'))
      (nCharTo 'b' '\x08'))
      (nCharTo 'f' '\x0C'))
      (nCharTo 'n' '\n'))
      (nCharTo 'r' '\r'))
      (nCharTo 't' '\t'))
      (nIgnoreThen (nCharTo 'u' 'u') (nValidate total validateUnicode (nExactly (nFilter fun c => (hexVal c).isSome) 4)))

/-- parser.rs:135. -/
def nIdent : Counted Token := nMap .ident nIdentStr

/-- parser.rs:139: a character of a quoted name. -/
def nQuotedChar (pol : Policy) (total : Nat) : Counted Char := nOr pol (nFilter fun c => c != '\\' && c != '`') (nEscape pol total)

/-- parser.rs:138-142. -/
def nQuotedIdent (pol : Policy) (total : Nat) : Counted Token :=
  nMap .ident <| nThenIgnore (nIgnoreThen (nJust c!"`") (nRepeated (nQuotedChar pol total))) (nCharTo '`' '`')

/-- parser.rs:145-150. -/
def nToken (pol : Policy) (total : Nat) : Counted Token :=
  nOr pol (nOr pol (nOr pol (nOr pol (nOr pol nEdge (nKeyword pol)) nIdent) (nQuotedIdent pol total)) nCtrl) nNewline

/-- parser.rs:155-157. -/
def nSpaces : Counted Str := nRepeated (nOneOf c!" \t")

/-- parser.rs:158-161. -/
def nComment : Counted Str := nPaddedBy (nIgnoreThen (nJust c!"//") (nRepeated (nFilter fun c => c != '\n'))) nSpaces

/-- parser.rs:163-166. -/
def nStep (pol : Policy) (total : Nat) : Counted (Token × Span) :=
  nPaddedBy (nPaddedBy (nMapWithSpan total Prod.mk (nRecoverWith pol (nToken pol total))) (nRepeated nComment)) nSpaces

/-- parser.rs:92-168. -/
def nTokenizer (pol : Policy) (total : Nat) : Counted (List (Token × Span)) := nRepeated (nStep pol total)

/-! ## Tokens -/

/-- A parser of tokens with the number of its reads. -/
structure CountedLP (α : Type) where
  run : LP α
  reads : List Token → Nat

section
variable {α β : Type}

/-- `just(t)`. -/
def mJust (t : Token) : CountedLP Unit := ⟨lJust t, fun _ => 1⟩

/-- parser.rs:171-174 `ident`. -/
def mIdent : CountedLP Str := ⟨lIdent, fun _ => 1⟩

/-- `.map(f)`. -/
def mMap (f : α → β) (p : CountedLP α) : CountedLP β := ⟨lMap f p.run, p.reads⟩

/-- The reads of what comes next, if the parser has succeeded. -/
def tokenReadsAfter (r : Except Located (α × Option Located × List Token)) (next : List Token → Nat) : Nat :=
  match r with
  | .ok (_, _, rest) => next rest
  | .error _ => 0

variable (pol : ChoicePolicy)

/-- `.then(q)`. -/
def mThen (p : CountedLP α) (q : CountedLP β) : CountedLP (α × β) :=
  ⟨gThen pol p.run q.run, fun ts => p.reads ts + tokenReadsAfter (p.run ts) q.reads⟩

/-- `.ignore_then(q)`. -/
def mIgnoreThen (p : CountedLP α) (q : CountedLP β) : CountedLP β := mMap Prod.snd (mThen pol p q)

/-- `.then_ignore(q)`. -/
def mThenIgnore (p : CountedLP α) (q : CountedLP β) : CountedLP α := mMap Prod.fst (mThen pol p q)

/-- `choice((p, q))`. -/
def mChoice (p q : CountedLP α) : CountedLP α :=
  ⟨gChoice pol p.run q.run, fun ts => p.reads ts + match p.run ts with | .ok _ => 0 | .error _ => q.reads ts⟩

/-- `.or_not()`. -/
def mOrNot (p : CountedLP α) : CountedLP (Option α) := ⟨lOrNot p.run, p.reads⟩

/-- The reads of a repetition. -/
def tokenRepeatedReads (p : CountedLP α) : Nat → List Token → Nat
  | 0, _ => 0
  | fuel + 1, ts => p.reads ts + tokenReadsAfter (p.run ts) (tokenRepeatedReads p fuel)

/-- `.repeated()`. -/
def mRepeated (p : CountedLP α) : CountedLP (List α) := ⟨gRepeated pol p.run, fun ts => tokenRepeatedReads p (ts.length + 1) ts⟩

end

variable (pol : ChoicePolicy)

/-- parser.rs:176 `separator`. -/
def mSep : CountedLP Unit := mChoice pol (mJust .newline) (mJust (.ctrl ';'))

/-- parser.rs:178 `pad`. -/
def mPad : CountedLP (List Unit) := mRepeated pol (mSep pol)

/-- `.padded_by(pad)`. -/
def mPadded {α : Type} (p : CountedLP α) : CountedLP α := mThenIgnore pol (mIgnoreThen pol (mPad pol) p) (mPad pol)

/-- parser.rs:184-189 `entity_field_type`. -/
def mFieldType : CountedLP EntityFieldType :=
  mChoice pol (mMap (fun _ => .int) (mJust .int)) <|
  mChoice pol (mMap (fun _ => .uuid) (mJust .uuid)) <|
  mChoice pol (mMap (fun _ => .text) (mJust .text)) (mMap (fun _ => .timestamp) (mJust .timestamp))

/-- parser.rs:191-194 `entity_field_key`. -/
def mFieldKey : CountedLP EntityFieldKey :=
  mChoice pol (mMap (fun _ => .primaryKey) (mJust .pk)) (mMap (fun _ => .foreignKey) (mJust .fk))

/-- parser.rs:196-204 `entity`. -/
def mEntity : CountedLP EntityPath :=
  mMap (fun | (table, some f) => .field table f | (table, none) => .entity table)
    (mThen pol mIdent (mIgnoreThen pol (mJust (.ctrl '.')) (mOrNot mIdent)))

/-- parser.rs:206-209 `entity_field`. -/
def mEntityField : CountedLP EntityField :=
  mMap (fun ((name, ty), key) => ⟨name, ty, key⟩) (mThen pol (mThen pol mIdent (mFieldType pol)) (mOrNot (mFieldKey pol)))

/-- parser.rs:213-219 and 255-261: a further item of a list. -/
def mNextItem {α : Type} (item : CountedLP α) : CountedLP α := mIgnoreThen pol (mIgnoreThen pol (mSep pol) (mPad pol)) item

/-- parser.rs:211-220 and 253-263. -/
def mItems {α : Type} (item : CountedLP α) : CountedLP (Option (List α)) :=
  mOrNot (mMap (fun (a, as) => a :: as) (mThen pol item (mRepeated pol (mNextItem pol item))))

/-- parser.rs:211-222 `entity_fields`. -/
def mEntityFields : CountedLP (List EntityField) := mMap (fun fs => fs.getD []) (mPadded pol (mItems pol (mEntityField pol)))

/-- parser.rs:224-237 `entity_definition`. -/
def mEntityDefinition : CountedLP EntityDefinition :=
  mMap (fun (name, fields) => ⟨name, fields⟩)
    (mThenIgnore pol (mThen pol (mThenIgnore pol (mThenIgnore pol mIdent (mPad pol)) (mJust (.ctrl '{'))) (mEntityFields pol)) (mJust (.ctrl '}')))

/-- parser.rs:239-246 `relation`. -/
def mRelation : CountedLP EntityRelation :=
  mMap (fun (a, b) => ⟨a, b⟩) (mThen pol (mEntity pol) (mIgnoreThen pol (mPadded pol (mJust .edge)) (mEntity pol)))

/-- parser.rs:248-251 `module_entry`. -/
def mModuleEntry : CountedLP ModuleEntry := mChoice pol (mMap .definition (mEntityDefinition pol)) (mMap .relation (mRelation pol))

/-- parser.rs:253-263 `module_entries`. -/
def mModuleEntries : CountedLP (List ModuleEntry) := mMap (fun es => es.getD []) (mItems pol (mModuleEntry pol))

/-- parser.rs:265-280. -/
def mModule : CountedLP Module :=
  mMap (fun (name, entries) => entries.foldl Module.addEntry (Module.new name))
    (mPadded pol (mThenIgnore pol (mThen pol (mThenIgnore pol (mIgnoreThen pol (mPadded pol (mJust .erd)) (mOrNot (mPadded pol mIdent))) (mJust (.ctrl '{')))
      (mPadded pol (mModuleEntries pol))) (mJust (.ctrl '}'))))

/-! ## A source -/

/-- parser.rs:76-90: the number of characters read by the tokenizer. -/
def charReads (pol : Policy) (src : Str) : Nat := (nTokenizer pol src.length).reads src

/-- parser.rs:76-90: the number of tokens read by the parser. -/
def tokenReads (pol : ChoicePolicy) (src : Str) : Nat :=
  match tokenize src with
  | (some tokens, _) => (mModule pol).reads (tokens.map Prod.fst)
  | (none, _) => 0

end Seiren
