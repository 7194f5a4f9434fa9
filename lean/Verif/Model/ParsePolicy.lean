import Verif.Model.ParseErrors
/-!
# The token parser of `src/parser.rs` for every way of keeping errors

`Verif/Model/ParseErrors.lean` fixes two details of chumsky's combinators that its documentation leaves open: that the errors of failed
alternatives of a `choice` are forgotten when another alternative succeeds, and how two sets of expected tokens are united.  Here the
same parser takes them as a parameter.  `Verif/Props/ParsePolicy.lean` proves that they do not matter (C85).
-/

namespace Seiren

/-- What is left open about chumsky. -/
structure ChoicePolicy where
  /-- `choice((p, q))`, if `p` fails and `q` succeeds: whether the error of `p` becomes part of the alternative. -/
  mergeAlt : Bool
  /-- `Simple::merge`: the union of two sets of expected tokens (a `HashSet`), listed in any way. -/
  unite : List Token → List Token → List Token
  /-- It is the union. -/
  mem_unite : ∀ a b t, t ∈ unite a b ↔ t ∈ a ∨ t ∈ b

variable (pol : ChoicePolicy)

/-- chumsky `Located::max`. -/
def Located.maxWith (a b : Located) : Located :=
  if a.left < b.left then a
  else if b.left < a.left then b
  else ⟨a.left, pol.unite a.expected b.expected⟩

/-- chumsky `Located::max` with an optional argument. -/
def Located.maxOptWith (a : Located) : Option Located → Located
  | none => a
  | some b => a.maxWith pol b

/-- chumsky `merge_alts`. -/
def mergeAltsWith : Option Located → Option Located → Option Located
  | none, b => b
  | some a, b => some (a.maxOptWith pol b)

section
variable {α β : Type}

/-- `.then(q)`. -/
def gThen (p : LP α) (q : LP β) : LP (α × β) := fun ts =>
  match p ts with
  | .error e => .error e
  | .ok (a, alt, rest) =>
    match q rest with
    | .error e => .error (e.maxOptWith pol alt)
    | .ok (b, alt', rest') => .ok ((a, b), mergeAltsWith pol alt alt', rest')

/-- `.ignore_then(q)`. -/
def gIgnoreThen (p : LP α) (q : LP β) : LP β := lMap Prod.snd (gThen pol p q)

/-- `.then_ignore(q)`. -/
def gThenIgnore (p : LP α) (q : LP β) : LP α := lMap Prod.fst (gThen pol p q)

/-- `choice((p, q))`. -/
def gChoice (p q : LP α) : LP α := fun ts =>
  match p ts with
  | .ok r => .ok r
  | .error e =>
    match q ts with
    | .ok (a, alt, rest) => .ok (a, if pol.mergeAlt then mergeAltsWith pol (some e) alt else alt, rest)
    | .error e' => .error (e'.maxWith pol e)

/-- `.repeated()`, with the alternative collected so far. -/
def gRepeatedLoop (p : LP α) : Nat → Option Located → List Token → List α × Option Located × List Token
  | 0, alt, ts => ([], alt, ts)
  | fuel + 1, alt, ts =>
    match p ts with
    | .error e => ([], mergeAltsWith pol alt (some e), ts)
    | .ok (a, alt', rest) =>
      let (as, alt'', rest') := gRepeatedLoop p fuel (mergeAltsWith pol alt alt') rest
      (a :: as, alt'', rest')

/-- `.repeated()`. -/
def gRepeated (p : LP α) : LP (List α) := fun ts => .ok (gRepeatedLoop pol p (ts.length + 1) none ts)

end

/-- parser.rs:176 `separator`. -/
def gSep : LP Unit := gChoice pol (lJust .newline) (lJust (.ctrl ';'))

/-- parser.rs:178 `pad`. -/
def gPad : LP (List Unit) := gRepeated pol (gSep pol)

/-- `.padded_by(pad)`. -/
def gPadded {α : Type} (p : LP α) : LP α := gThenIgnore pol (gIgnoreThen pol (gPad pol) p) (gPad pol)

/-- parser.rs:184-189 `entity_field_type`. -/
def gFieldType : LP EntityFieldType :=
  gChoice pol (lMap (fun _ => .int) (lJust .int)) <|
  gChoice pol (lMap (fun _ => .uuid) (lJust .uuid)) <|
  gChoice pol (lMap (fun _ => .text) (lJust .text)) (lMap (fun _ => .timestamp) (lJust .timestamp))

/-- parser.rs:191-194 `entity_field_key`. -/
def gFieldKey : LP EntityFieldKey :=
  gChoice pol (lMap (fun _ => .primaryKey) (lJust .pk)) (lMap (fun _ => .foreignKey) (lJust .fk))

/-- parser.rs:196-204 `entity`. -/
def gEntity : LP EntityPath :=
  lMap (fun | (table, some f) => .field table f | (table, none) => .entity table)
    (gThen pol lIdent (gIgnoreThen pol (lJust (.ctrl '.')) (lOrNot lIdent)))

/-- parser.rs:206-209 `entity_field`. -/
def gEntityField : LP EntityField :=
  lMap (fun ((name, ty), key) => ⟨name, ty, key⟩) (gThen pol (gThen pol lIdent (gFieldType pol)) (lOrNot (gFieldKey pol)))

/-- parser.rs:211-220 and 253-263. -/
def gItems {α : Type} (item : LP α) : LP (Option (List α)) :=
  lOrNot (lMap (fun (a, as) => a :: as) (gThen pol item (gRepeated pol (gIgnoreThen pol (gIgnoreThen pol (gSep pol) (gPad pol)) item))))

/-- parser.rs:211-222 `entity_fields`. -/
def gEntityFields : LP (List EntityField) := lMap (fun fs => fs.getD []) (gPadded pol (gItems pol (gEntityField pol)))

/-- parser.rs:224-237 `entity_definition`. -/
def gEntityDefinition : LP EntityDefinition :=
  lMap (fun (name, fields) => ⟨name, fields⟩)
    (gThenIgnore pol (gThen pol (gThenIgnore pol (gThenIgnore pol lIdent (gPad pol)) (lJust (.ctrl '{'))) (gEntityFields pol)) (lJust (.ctrl '}')))

/-- parser.rs:239-246 `relation`. -/
def gRelation : LP EntityRelation :=
  lMap (fun (a, b) => ⟨a, b⟩) (gThen pol (gEntity pol) (gIgnoreThen pol (gPadded pol (lJust .edge)) (gEntity pol)))

/-- parser.rs:248-251 `module_entry`. -/
def gModuleEntry : LP ModuleEntry := gChoice pol (lMap .definition (gEntityDefinition pol)) (lMap .relation (gRelation pol))

/-- parser.rs:253-263 `module_entries`. -/
def gModuleEntries : LP (List ModuleEntry) := lMap (fun es => es.getD []) (gItems pol (gModuleEntry pol))

/-- parser.rs:265-280. -/
def gModule : LP Module :=
  lMap (fun (name, entries) => entries.foldl Module.addEntry (Module.new name))
    (gPadded pol (gThenIgnore pol (gThen pol (gThenIgnore pol (gIgnoreThen pol (gPadded pol (lJust .erd)) (lOrNot (gPadded pol lIdent))) (lJust (.ctrl '{')))
      (gPadded pol (gModuleEntries pol))) (lJust (.ctrl '}'))))

/-- parser.rs:76-90 `parse`, with what is reported about the error of the parser. -/
def parseReportsWith (src : Str) : Option Module × List ParseReport :=
  match tokenize src with
  | (some tokens, _) =>
    match gModule pol (tokens.map Prod.fst) with
    | .ok (m, _, _) => (some m, [])
    | .error e => (none, [parseReport src.length tokens e])
  | (none, _) => (none, [])

end Seiren
