import Verif.Model.Mir
/-! # Model of `src/erd.rs`: the AST, its `Display`, and the translation `into_mir` -/

namespace Seiren

/-- erd.rs:276-286 `EntityFieldType`. -/
inductive EntityFieldType where
  | int | uuid | text | timestamp
  deriving DecidableEq, Repr

/-- erd.rs:278-285 `Display` of `EntityFieldType`. -/
def EntityFieldType.display : EntityFieldType → Str
  | .int => c!"int"
  | .uuid => c!"uuid"
  | .text => c!"text"
  | .timestamp => c!"timestamp"

/-- erd.rs:288-294 `EntityFieldKey` (spelled `ForeginKey` in the code). -/
inductive EntityFieldKey where
  | primaryKey | foreignKey
  deriving DecidableEq, Repr

/-- erd.rs:306-311 `EntityFieldKey::to_keyword`. -/
def EntityFieldKey.toKeyword : EntityFieldKey → Str
  | .primaryKey => c!"PK"
  | .foreignKey => c!"FK"

/-- erd.rs:297-330 `EntityFieldKey::into_mir`, with `badge_text`, `badge_text_color`, `badge_bg_color`. -/
def EntityFieldKey.intoMir (k : EntityFieldKey) : Badge :=
  { text := k.toKeyword
    color := some (match k with
      | .primaryKey => .named .white
      | .foreignKey => .rgb ⟨17, 112, 251⟩)
    bgColor := some (match k with
      | .primaryKey => .rgb ⟨55, 55, 55⟩
      | .foreignKey => .rgb ⟨32, 41, 55⟩) }

/-- erd.rs:236-240 `EntityField`. -/
structure EntityField where
  name : Str
  fieldType : EntityFieldType
  fieldKey : Option EntityFieldKey
  deriving DecidableEq, Repr

/-- erd.rs:188-191 `EntityDefinition`. -/
structure EntityDefinition where
  name : Str
  fields : List EntityField
  deriving DecidableEq, Repr

/-- erd.rs:333-338 `EntityPath`. -/
inductive EntityPath where
  | entity (name : Str)
  | field (entity field : Str)
  deriving DecidableEq, Repr

/-- erd.rs:342-345 `EntityRelation`. -/
structure EntityRelation where
  startPath : EntityPath
  endPath : EntityPath
  deriving DecidableEq, Repr

/-- erd.rs:182-185 `ModuleEntry`. -/
inductive ModuleEntry where
  | definition (d : EntityDefinition)
  | relation (r : EntityRelation)
  deriving DecidableEq, Repr

/-- erd.rs:9-12 `Module`. -/
structure Module where
  name : Option Str
  entries : List ModuleEntry
  deriving DecidableEq, Repr

namespace Module

/-- erd.rs:15-20 `Module::new`. -/
def new (name : Option Str) : Module := ⟨name, []⟩

/-- erd.rs:30-32 `Module::add_entry` (34-40 `add_entity_definition`, `add_entity_relation` are special cases). -/
def addEntry (m : Module) (e : ModuleEntry) : Module := { m with entries := m.entries ++ [e] }

end Module

/-! ## `Display` -/

/-- erd.rs:268-274 `Display for EntityField`. -/
def EntityField.display (f : EntityField) : Str :=
  f.name ++ c!" " ++ f.fieldType.display ++
    (match f.fieldKey with
     | none => []
     | some k => c!" " ++ k.toKeyword)

/-- erd.rs:220-227: the fields separated by "; ". -/
def displayFields : List EntityField → Str
  | [] => []
  | [f] => f.display
  | f :: fs => f.display ++ c!"; " ++ displayFields fs

/-- erd.rs:214-233 `Display for EntityDefinition`. -/
def EntityDefinition.display (d : EntityDefinition) : Str :=
  d.name ++ c!" {" ++
    (if d.fields.length > 0 then c!" " ++ displayFields d.fields ++ c!" " else []) ++ c!"}"

/-- erd.rs:332-338 `Display` of `EntityPath`. -/
def EntityPath.display : EntityPath → Str
  | .entity n => n
  | .field e f => e ++ c!"." ++ f

/-- erd.rs:341 `Display` of `EntityRelation`. -/
def EntityRelation.display (r : EntityRelation) : Str :=
  r.startPath.display ++ c!" o--o " ++ r.endPath.display

/-- erd.rs:181-185 `Display` of `ModuleEntry`: delegates to the payload. -/
def ModuleEntry.display : ModuleEntry → Str
  | .definition d => d.display
  | .relation r => r.display

/-- erd.rs:174-176: `    {entry}\n` for each entry. -/
def displayEntries : List ModuleEntry → Str
  | [] => []
  | e :: es => c!"    " ++ e.display ++ c!"\n" ++ displayEntries es

/-- erd.rs:167-179 `Display for Module`. -/
def Module.display (m : Module) : Str :=
  c!"erd " ++
    (match m.name with
     | none => []
     | some n => n ++ c!" ") ++
    c!"{\n" ++ displayEntries m.entries ++ c!"}"

/-! ## `into_mir` -/

/-- erd.rs:43 `light_gray_color` -/
def lightGray : WebColor := .rgb ⟨73, 73, 73⟩
/-- erd.rs:44 `table_border_color` -/
def tableBorderColor : WebColor := lightGray
/-- erd.rs:45 `table_bg_color` -/
def tableBgColor : WebColor := .rgb ⟨33, 33, 33⟩
/-- erd.rs:46 `text_color` -/
def textColor : WebColor := .named .white

/-- erd.rs:141-164 `Module::column_type_color`. -/
def columnTypeColor : EntityFieldType → WebColor
  | .int => .rgb ⟨236, 199, 0⟩
  | .uuid => .rgb ⟨236, 199, 0⟩
  | .text => .rgb ⟨214, 105, 5⟩
  | .timestamp => .rgb ⟨6, 182, 151⟩

/-- erd.rs:57-68: the header field of a table. -/
def headerShape (d : EntityDefinition) : FieldShape :=
  { title := { text := d.name, color := some textColor, fontFamily := some .monospace1, fontWeight := some .bold }
    bgColor := some lightGray }

/-- erd.rs:72-77: the record shape of a table. -/
def recordShape : RecordShape :=
  { rounded := true, bgColor := some tableBgColor, borderColor := some tableBorderColor }

/-- erd.rs:82-105: the field shape of a column. -/
def fieldShape (f : EntityField) : FieldShape :=
  { title := { text := f.name, color := some textColor, fontFamily := some .monospace2, fontWeight := some .lighter }
    subtitle := some
      { text := f.fieldType.display, color := some (columnTypeColor f.fieldType), fontFamily := some .monospace2,
        fontWeight := some .lighter, fontSize := some .small }
    borderColor := some tableBorderColor
    badge := f.fieldKey.map (·.intoMir) }

/-- erd.rs:50 `node_paths: HashMap<EntityPath, NodeId>` as an association list, newest binding first. -/
abbrev NodePaths := List (EntityPath × NodeId)

/-- `HashMap::insert`: the newest binding of a key hides older ones. -/
def NodePaths.insert (m : NodePaths) (k : EntityPath) (v : NodeId) : NodePaths := (k, v) :: m

/-- `HashMap::get`. -/
def NodePaths.get (m : NodePaths) (k : EntityPath) : Option NodeId := m.lookup k

/-- erd.rs:78-115: create the field nodes of one table, left to right; returns the ids in order. -/
def addFields (entity : Str) : List EntityField → Document → NodePaths → Document × NodePaths × List NodeId
  | [], doc, paths => (doc, paths, [])
  | f :: fs, doc, paths =>
    let (doc, id) := doc.createField (fieldShape f)
    let paths := paths.insert (.field entity f.name) id
    let (doc, paths, ids) := addFields entity fs doc paths
    (doc, paths, id :: ids)

/-- erd.rs:54-128: the `EntityDefinition` arm. -/
def addDefinition (d : EntityDefinition) (doc : Document) (paths : NodePaths) : Document × NodePaths :=
  -- 56-71
  let (doc, headerId) := doc.createField (headerShape d)
  -- 78-115
  let (doc, paths, fieldIds) := addFields d.name d.fields doc paths
  -- 117-118
  let (doc, recordId) := doc.createRecord recordShape
  let paths := paths.insert (.entity d.name) recordId
  -- 120-125
  let doc := doc.modifyNode recordId fun n => fieldIds.foldl NodeData.appendChild (n.appendChild headerId)
  -- 127
  let doc := doc.modifyNode doc.bodyId (·.appendChild recordId)
  (doc, paths)

/-- erd.rs:129-134: the `EntityRelation` arm. -/
def addRelation (r : EntityRelation) (doc : Document) (paths : NodePaths) : Document :=
  match paths.get r.startPath with
  | none => doc
  | some s =>
    match paths.get r.endPath with
    | none => doc
    | some t => doc.addEdge { sourceId := s, targetId := t, pathPoints := none }

/-- erd.rs:52-136: one iteration of the loop over the entries. -/
def addEntryMir (st : Document × NodePaths) (e : ModuleEntry) : Document × NodePaths :=
  match e with
  | .definition d => addDefinition d st.1 st.2
  | .relation r => (addRelation r st.1 st.2, st.2)

/-- erd.rs:42-139 `Module::into_mir`. -/
def Module.intoMir (m : Module) : Document := (m.entries.foldl addEntryMir (Document.new, [])).1

end Seiren
