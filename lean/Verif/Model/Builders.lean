import Verif.Model.Erd
/-!
# The builders of shapes, and `into_mir` with all its `unwrap`s (`src/mir.rs:263-315`, `src/erd.rs:42-139`)

`Verif/Model/Erd.lean` makes the shapes at once.  The program makes them with the builders that the crate `derive_builder` generates: a builder keeps an
`Option` for each field of the structure, a setter puts a value there, and `build` makes the structure.  All structures are marked `#[builder(default)]`,
so `build` takes what has not been set from `Default::default()`; none has a validation function.  The result of `build` is unwrapped, and so are the
results of `get_node_mut` (erd.rs:120) and of `node_weight_mut` in `body_mut` (mir.rs:202-204); petgraph's `add_edge` panics if a node does not exist.

Not modelled: that setters take a reference to the builder and `build` clones the values (`pattern = "mutable"`); the values are the same.
-/

namespace Seiren

/-- derive_builder: the generated error types `…BuilderError`. -/
inductive BuilderError where
  | uninitializedField (name : Str)
  | validationError (msg : Str)
  deriving DecidableEq, Repr

/-- Where `into_mir` could panic. -/
inductive MirPanic where
  /-- `build().unwrap()` -/
  | builder (e : BuilderError)
  /-- `get_node_mut(…).unwrap()`, `node_weight_mut(…).unwrap()` -/
  | missingNode
  /-- petgraph: `Graph::add_edge: node indices out of bounds` -/
  | missingEnd
  deriving DecidableEq, Repr

/-- `Result::unwrap` of the result of `build`. -/
def unwrapBuilt {α : Type} : Except BuilderError α → Except MirPanic α
  | .ok a => .ok a
  | .error e => .error (.builder e)

/-! ## `TextSpan` -/

/-- derive_builder for mir.rs:285-294. -/
structure TextSpanBuilder where
  text : Option Str := none
  color : Option (Option WebColor) := none
  fontFamily : Option (Option FontFamily) := none
  fontWeight : Option (Option FontWeight) := none
  fontSize : Option (Option FontSize) := none
  deriving DecidableEq, Repr

namespace TextSpanBuilder
/-- derive_builder: the setter `text`, mir.rs:288-289. -/
def setText (b : TextSpanBuilder) (v : Str) : TextSpanBuilder := { b with text := some v }
/-- derive_builder: the setter `color`, mir.rs:290. -/
def setColor (b : TextSpanBuilder) (v : Option WebColor) : TextSpanBuilder := { b with color := some v }
/-- derive_builder: the setter `font_family`, mir.rs:291. -/
def setFontFamily (b : TextSpanBuilder) (v : Option FontFamily) : TextSpanBuilder := { b with fontFamily := some v }
/-- derive_builder: the setter `font_weight`, mir.rs:292. -/
def setFontWeight (b : TextSpanBuilder) (v : Option FontWeight) : TextSpanBuilder := { b with fontWeight := some v }
/-- derive_builder: the setter `font_size`, mir.rs:293. -/
def setFontSize (b : TextSpanBuilder) (v : Option FontSize) : TextSpanBuilder := { b with fontSize := some v }

/-- derive_builder: `build`, with `#[builder(default)]` for the structure; `{}` is `TextSpan::default()`. -/
def build (b : TextSpanBuilder) : Except BuilderError TextSpan :=
  let dflt : TextSpan := {}
  .ok { text := b.text.getD dflt.text, color := b.color.getD dflt.color, fontFamily := b.fontFamily.getD dflt.fontFamily,
        fontWeight := b.fontWeight.getD dflt.fontWeight, fontSize := b.fontSize.getD dflt.fontSize }
end TextSpanBuilder

/-! ## `Badge` -/

/-- derive_builder for mir.rs:296-303. -/
structure BadgeBuilder where
  text : Option Str := none
  color : Option (Option WebColor) := none
  bgColor : Option (Option WebColor) := none
  deriving DecidableEq, Repr

namespace BadgeBuilder
/-- derive_builder: the setter `text`, mir.rs:299-300. -/
def setText (b : BadgeBuilder) (v : Str) : BadgeBuilder := { b with text := some v }
/-- derive_builder: the setter `color`, mir.rs:301. -/
def setColor (b : BadgeBuilder) (v : Option WebColor) : BadgeBuilder := { b with color := some v }
/-- derive_builder: the setter `bg_color`, mir.rs:302. -/
def setBgColor (b : BadgeBuilder) (v : Option WebColor) : BadgeBuilder := { b with bgColor := some v }

/-- derive_builder: `build`. -/
def build (b : BadgeBuilder) : Except BuilderError Badge :=
  let dflt : Badge := {}
  .ok { text := b.text.getD dflt.text, color := b.color.getD dflt.color, bgColor := b.bgColor.getD dflt.bgColor }
end BadgeBuilder

/-! ## `RecordShape` -/

/-- derive_builder for mir.rs:267-273. -/
structure RecordShapeBuilder where
  rounded : Option Bool := none
  bgColor : Option (Option WebColor) := none
  borderColor : Option (Option WebColor) := none
  deriving DecidableEq, Repr

namespace RecordShapeBuilder
/-- derive_builder: the setter `rounded`, mir.rs:270. -/
def setRounded (b : RecordShapeBuilder) (v : Bool) : RecordShapeBuilder := { b with rounded := some v }
/-- derive_builder: the setter `bg_color`, mir.rs:271. -/
def setBgColor (b : RecordShapeBuilder) (v : Option WebColor) : RecordShapeBuilder := { b with bgColor := some v }
/-- derive_builder: the setter `border_color`, mir.rs:272. -/
def setBorderColor (b : RecordShapeBuilder) (v : Option WebColor) : RecordShapeBuilder := { b with borderColor := some v }

/-- derive_builder: `build`. -/
def build (b : RecordShapeBuilder) : Except BuilderError RecordShape :=
  let dflt : RecordShape := {}
  .ok { rounded := b.rounded.getD dflt.rounded, bgColor := b.bgColor.getD dflt.bgColor, borderColor := b.borderColor.getD dflt.borderColor }
end RecordShapeBuilder

/-! ## `FieldShape` -/

/-- derive_builder for mir.rs:275-283. -/
structure FieldShapeBuilder where
  title : Option TextSpan := none
  subtitle : Option (Option TextSpan) := none
  badge : Option (Option Badge) := none
  bgColor : Option (Option WebColor) := none
  borderColor : Option (Option WebColor) := none
  deriving DecidableEq, Repr

namespace FieldShapeBuilder
/-- derive_builder: the setter `title`, mir.rs:278. -/
def setTitle (b : FieldShapeBuilder) (v : TextSpan) : FieldShapeBuilder := { b with title := some v }
/-- derive_builder: the setter `subtitle`, mir.rs:279. -/
def setSubtitle (b : FieldShapeBuilder) (v : Option TextSpan) : FieldShapeBuilder := { b with subtitle := some v }
/-- derive_builder: the setter `badge`, mir.rs:280. -/
def setBadge (b : FieldShapeBuilder) (v : Option Badge) : FieldShapeBuilder := { b with badge := some v }
/-- derive_builder: the setter `bg_color`, mir.rs:281. -/
def setBgColor (b : FieldShapeBuilder) (v : Option WebColor) : FieldShapeBuilder := { b with bgColor := some v }
/-- derive_builder: the setter `border_color`, mir.rs:282. -/
def setBorderColor (b : FieldShapeBuilder) (v : Option WebColor) : FieldShapeBuilder := { b with borderColor := some v }

/-- derive_builder: `build`. -/
def build (b : FieldShapeBuilder) : Except BuilderError FieldShape :=
  let dflt : FieldShape := {}
  .ok { title := b.title.getD dflt.title, subtitle := b.subtitle.getD dflt.subtitle, badge := b.badge.getD dflt.badge,
        bgColor := b.bgColor.getD dflt.bgColor, borderColor := b.borderColor.getD dflt.borderColor }
end FieldShapeBuilder

/-! ## Where they are used -/

/-- mir.rs:306-314 `Badge::into_text_span`. -/
def Badge.intoTextSpanB (b : Badge) : Except MirPanic TextSpan :=
  unwrapBuilt ((({} : TextSpanBuilder).setText b.text |>.setColor b.color |>.setFontFamily (some .sansSerif3) |>.setFontSize (some .xxSmall)).build)

/-- erd.rs:313-315 `EntityFieldKey::badge_text`. -/
def EntityFieldKey.badgeText (k : EntityFieldKey) : Str := k.toKeyword

/-- erd.rs:317-322 `EntityFieldKey::badge_text_color`. -/
def EntityFieldKey.badgeTextColor : EntityFieldKey → WebColor
  | .primaryKey => .named .white
  | .foreignKey => .rgb ⟨17, 112, 251⟩

/-- erd.rs:324-329 `EntityFieldKey::badge_bg_color`. -/
def EntityFieldKey.badgeBgColor : EntityFieldKey → WebColor
  | .primaryKey => .rgb ⟨55, 55, 55⟩
  | .foreignKey => .rgb ⟨32, 41, 55⟩

/-- erd.rs:297-304 `EntityFieldKey::into_mir`. -/
def EntityFieldKey.intoMirB (k : EntityFieldKey) : Except MirPanic Badge :=
  unwrapBuilt ((({} : BadgeBuilder).setText k.badgeText |>.setColor (some k.badgeTextColor) |>.setBgColor (some k.badgeBgColor)).build)

/-- erd.rs:57-68: the header field of a table. -/
def headerShapeB (d : EntityDefinition) : Except MirPanic FieldShape :=
  match unwrapBuilt ((({} : TextSpanBuilder).setText d.name |>.setColor (some textColor) |>.setFontFamily (some .monospace1)
    |>.setFontWeight (some .bold)).build) with
  | .error e => .error e
  | .ok name => unwrapBuilt ((({} : FieldShapeBuilder).setTitle name |>.setBgColor (some lightGray)).build)

/-- erd.rs:72-77: the record of a table. -/
def recordShapeB : Except MirPanic RecordShape :=
  unwrapBuilt ((({} : RecordShapeBuilder).setRounded true |>.setBgColor (some tableBgColor) |>.setBorderColor (some tableBorderColor)).build)

/-- erd.rs:103 `field.field_key.map(|key| key.into_mir())`. -/
def keyBadgeB : Option EntityFieldKey → Except MirPanic (Option Badge)
  | none => .ok none
  | some k =>
    match k.intoMirB with
    | .error e => .error e
    | .ok b => .ok (some b)

/-- erd.rs:82-105: the field of a column. -/
def fieldShapeB (f : EntityField) : Except MirPanic FieldShape :=
  match unwrapBuilt ((({} : TextSpanBuilder).setText f.name |>.setColor (some textColor) |>.setFontFamily (some .monospace2)
    |>.setFontWeight (some .lighter)).build) with
  | .error e => .error e
  | .ok name =>
    match unwrapBuilt ((({} : TextSpanBuilder).setText f.fieldType.display |>.setColor (some (columnTypeColor f.fieldType))
      |>.setFontFamily (some .monospace2) |>.setFontWeight (some .lighter) |>.setFontSize (some .small)).build) with
    | .error e => .error e
    | .ok columnType =>
      match keyBadgeB f.fieldKey with
      | .error e => .error e
      | .ok badge =>
        unwrapBuilt ((({} : FieldShapeBuilder).setTitle name |>.setSubtitle (some columnType) |>.setBorderColor (some tableBorderColor)
          |>.setBadge badge).build)

/-- erd.rs:78-115: create the nodes of the columns. -/
def addFieldsB (entity : Str) : List EntityField → Document → NodePaths → Except MirPanic (Document × NodePaths × List NodeId)
  | [], doc, paths => .ok (doc, paths, [])
  | f :: fs, doc, paths =>
    match fieldShapeB f with
    | .error e => .error e
    | .ok shape =>
      let (doc, id) := doc.createField shape
      match addFieldsB entity fs doc (paths.insert (.field entity f.name) id) with
      | .error e => .error e
      | .ok (doc, paths, ids) => .ok (doc, paths, id :: ids)

/-- mir.rs:212-214 `get_node_mut`, unwrapped, and a change of the node. -/
def Document.updateNode (d : Document) (id : NodeId) (f : NodeData → NodeData) : Except MirPanic Document :=
  match d.nodes[id]? with
  | none => .error .missingNode
  | some n => .ok { d with nodes := d.nodes.set id (f n) }

/-- erd.rs:54-128: the `EntityDefinition` arm. -/
def addDefinitionB (d : EntityDefinition) (doc : Document) (paths : NodePaths) : Except MirPanic (Document × NodePaths) :=
  -- 56-71
  match headerShapeB d with
  | .error e => .error e
  | .ok header =>
    let (doc, headerId) := doc.createField header
    -- 72-77
    match recordShapeB with
    | .error e => .error e
    | .ok record =>
      -- 78-115
      match addFieldsB d.name d.fields doc paths with
      | .error e => .error e
      | .ok (doc, paths, fieldIds) =>
        -- 117-118
        let (doc, recordId) := doc.createRecord record
        let paths := paths.insert (.entity d.name) recordId
        -- 120-125
        match doc.updateNode recordId fun n => fieldIds.foldl NodeData.appendChild (n.appendChild headerId) with
        | .error e => .error e
        | .ok doc =>
          -- 127, mir.rs:202-204
          match doc.updateNode doc.bodyId (·.appendChild recordId) with
          | .error e => .error e
          | .ok doc => .ok (doc, paths)

/-- erd.rs:129-134: the `EntityRelation` arm, with petgraph's check of the ends. -/
def addRelationB (r : EntityRelation) (doc : Document) (paths : NodePaths) : Except MirPanic Document :=
  match paths.get r.startPath with
  | none => .ok doc
  | some s =>
    match paths.get r.endPath with
    | none => .ok doc
    | some t => if s < doc.nodes.length ∧ t < doc.nodes.length then .ok (doc.addEdge { sourceId := s, targetId := t, pathPoints := none }) else .error .missingEnd

/-- erd.rs:52-136: the loop over the entries. -/
def addEntriesB : List ModuleEntry → Document → NodePaths → Except MirPanic Document
  | [], doc, _ => .ok doc
  | .definition d :: es, doc, paths =>
    match addDefinitionB d doc paths with
    | .error e => .error e
    | .ok (doc, paths) => addEntriesB es doc paths
  | .relation r :: es, doc, paths =>
    match addRelationB r doc paths with
    | .error e => .error e
    | .ok doc => addEntriesB es doc paths

/-- erd.rs:42-139 `Module::into_mir`. -/
def Module.intoMirB (m : Module) : Except MirPanic Document := addEntriesB m.entries Document.new []

end Seiren
