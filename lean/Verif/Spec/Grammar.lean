import Verif.Model.Parser
/-! # Specification: the grammar of modules, as relations between syntax trees and token sequences

Nothing here refers to the parser; only `Token` and the syntax trees are shared with the model. -/

namespace Seiren.Spec

/-- A reading of the EBNF of parser.rs:7-33: what PAD consists of, how the end of a relation is written, and whether padding
is allowed in an entity without fields. -/
structure Dialect where
  pad : Token → Prop
  ends : EntityPath → List Token → Prop
  padsEmptyBody : Prop

/-- SEP = newline | ";". -/
def IsSeparator (t : Token) : Prop := t = .newline ∨ t = .ctrl ';'

/-- `identifier "." [ identifier ]`: how relation ends are written in the implemented grammar. -/
inductive DottedEnd : EntityPath → List Token → Prop
  | field (t f : Str) : DottedEnd (.field t f) [.ident t, .ctrl '.', .ident f]
  | entity (t : Str) : DottedEnd (.entity t) [.ident t, .ctrl '.']

/-- `identifier [ "." identifier ]`: how they are written in the documented grammar (parser.rs:20). -/
inductive DocumentedEnd : EntityPath → List Token → Prop
  | field (t f : Str) : DocumentedEnd (.field t f) [.ident t, .ctrl '.', .ident f]
  | entity (t : Str) : DocumentedEnd (.entity t) [.ident t]

/-- The implemented grammar. -/
def implemented : Dialect := ⟨IsSeparator, DottedEnd, True⟩

/-- The documented grammar: PAD consists of newlines, an entity body is empty or has a field.  (The second
`entity_field_type` in the rule of `entity_field`, parser.rs:16, is read as `entity_field_key`.) -/
def documented : Dialect := ⟨(· = .newline), DocumentedEnd, False⟩

def typeToken : EntityFieldType → Token
  | .int => .int
  | .uuid => .uuid
  | .text => .text
  | .timestamp => .timestamp

def keyTokens : Option EntityFieldKey → List Token
  | none => []
  | some .primaryKey => [.pk]
  | some .foreignKey => [.fk]

/-- `{ SEP, PAD, item }` -/
inductive More {α : Type} (D : Dialect) (item : α → List Token → Prop) : List α → List Token → Prop
  | done : More D item [] []
  | more (s : Token) (p : List Token) (a : α) (w : List Token) (as : List α) (v : List Token) (hs : IsSeparator s)
      (hp : ∀ t ∈ p, D.pad t) (ha : item a w) (hv : More D item as v) : More D item (a :: as) (s :: (p ++ (w ++ v)))

/-- `item, { SEP, PAD, item } | EMPTY` -/
inductive Items {α : Type} (D : Dialect) (item : α → List Token → Prop) : List α → List Token → Prop
  | empty : Items D item [] []
  | items (a : α) (w : List Token) (as : List α) (v : List Token) (ha : item a w) (hv : More D item as v) :
      Items D item (a :: as) (w ++ v)

/-- `entity_field = identifier, entity_field_type, [ entity_field_key ]` -/
def FieldG (f : EntityField) (w : List Token) : Prop := w = .ident f.name :: typeToken f.fieldType :: keyTokens f.fieldKey

/-- `entity_definition = identifier, PAD, "{", entity_fields, "}"` -/
def DefinitionG (D : Dialect) (d : EntityDefinition) (w : List Token) : Prop :=
  ∃ p q ws r, (∀ t ∈ p ++ q ++ r, D.pad t) ∧ Items D FieldG d.fields ws ∧
    (d.fields = [] → D.padsEmptyBody ∨ q ++ r = []) ∧
    w = .ident d.name :: (p ++ .ctrl '{' :: (q ++ (ws ++ (r ++ [.ctrl '}']))))

/-- `relation = entity, PAD, edge, PAD, entity` -/
def RelationG (D : Dialect) (x : EntityRelation) (w : List Token) : Prop :=
  ∃ a p q b, D.ends x.startPath a ∧ D.ends x.endPath b ∧ (∀ t ∈ p ++ q, D.pad t) ∧ w = a ++ (p ++ .edge :: (q ++ b))

/-- `module_entry = entity_definition | relation` -/
inductive EntryG (D : Dialect) : ModuleEntry → List Token → Prop
  | definition {d : EntityDefinition} {w : List Token} (h : DefinitionG D d w) : EntryG D (.definition d) w
  | relation {r : EntityRelation} {w : List Token} (h : RelationG D r w) : EntryG D (.relation r) w

/-- `[ identifier, PAD ]` -/
inductive NameG (D : Dialect) : Option Str → List Token → Prop
  | none : NameG D none []
  | some (s : Str) (p : List Token) (hp : ∀ t ∈ p, D.pad t) : NameG D (some s) (.ident s :: p)

/-- `erd_module = PAD, "erd", PAD, [ identifier, PAD ], "{", PAD, module_entries, PAD, "}", PAD` -/
def ModuleG (D : Dialect) (m : Module) (w : List Token) : Prop :=
  ∃ p q n r ws u v, (∀ t ∈ p ++ q ++ r ++ u ++ v, D.pad t) ∧ NameG D m.name n ∧ Items D (EntryG D) m.entries ws ∧
    w = p ++ .erd :: (q ++ (n ++ .ctrl '{' :: (r ++ (ws ++ (u ++ .ctrl '}' :: v)))))

end Seiren.Spec
