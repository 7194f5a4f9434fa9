import Verif.Model.Erd
/-! # Reading a document back, and what the relations of a module refer to -/

namespace Seiren.Spec

/-- The entity definitions of a module, in order. -/
def definitions : List ModuleEntry → List EntityDefinition
  | [] => []
  | .definition d :: es => d :: definitions es
  | .relation _ :: es => definitions es

/-- What a line of a table shows: title, subtitle, badge. -/
structure Line where
  title : Str
  subtitle : Option Str
  badge : Option Str
  deriving DecidableEq, Repr

/-- The text of a type as users write it. -/
def typeText : EntityFieldType → Str
  | .int => c!"int"
  | .uuid => c!"uuid"
  | .text => c!"text"
  | .timestamp => c!"timestamp"

/-- The text of a key. -/
def keyText : EntityFieldKey → Str
  | .primaryKey => c!"PK"
  | .foreignKey => c!"FK"

/-- The lines a user expects for an entity: its name, then its columns. -/
def expectedLines (d : EntityDefinition) : List Line :=
  ⟨d.name, none, none⟩ :: d.fields.map fun f => ⟨f.name, some (typeText f.fieldType), f.fieldKey.map keyText⟩

/-- What the document shows for a node that is a line of a table. -/
def lineOf (doc : Document) (id : NodeId) : Option Line :=
  match doc.nodes[id]? with
  | some n =>
    match n.kind with
    | .field f => some ⟨f.title.text, f.subtitle.map (·.text), f.badge.map (·.text)⟩
    | _ => none
  | none => none

/-- What the document shows for a node that is a table. -/
def tableOf (doc : Document) (id : NodeId) : Option (List Line) :=
  match doc.nodes[id]? with
  | some n =>
    match n.kind with
    | .record _ => n.children.mapM (lineOf doc)
    | _ => none
  | none => none

/-- What the document shows: its tables in order. -/
def tablesOf (doc : Document) : Option (List (List Line)) :=
  match doc.nodes[doc.bodyId]? with
  | some b => b.children.mapM (tableOf doc)
  | none => none

/-- A table (number `k`, from 0) or a column of it (number `j`, from 0, without the header). -/
inductive NodeRef where
  | table (k : Nat)
  | column (k j : Nat)
  deriving DecidableEq, Repr

/-- The node of the document that a reference means. -/
def nodeOf (doc : Document) (r : NodeRef) : Option NodeId :=
  match doc.nodes[doc.bodyId]? with
  | none => none
  | some b =>
    match r with
    | .table k => b.children[k]?
    | .column k j =>
      match b.children[k]? with
      | none => none
      | some t =>
        match doc.nodes[t]? with
        | none => none
        | some n => n.children[j + 1]?

/-- All places where a path is defined by the given definitions, in order. -/
def candidates (defs : List EntityDefinition) : EntityPath → List NodeRef
  | .entity n => defs.zipIdx.filterMap fun (d, k) => if d.name = n then some (.table k) else none
  | .field e f => defs.zipIdx.flatMap fun (d, k) =>
      if d.name = e then d.fields.zipIdx.filterMap fun (c, j) => if c.name = f then some (.column k j) else none
      else []

/-- The most recent definition of a path. -/
def resolve (defs : List EntityDefinition) (p : EntityPath) : Option NodeRef := (candidates defs p).getLast?

/-- The connections a module asks for, in order: one for each relation both of whose ends are defined by the
definitions before it (`defs` are the definitions seen so far). -/
def connections (defs : List EntityDefinition) : List ModuleEntry → List (NodeRef × NodeRef)
  | [] => []
  | .definition d :: es => connections (defs ++ [d]) es
  | .relation r :: es =>
    match resolve defs r.startPath, resolve defs r.endPath with
    | some s, some t => (s, t) :: connections defs es
    | _, _ => connections defs es

end Seiren.Spec
