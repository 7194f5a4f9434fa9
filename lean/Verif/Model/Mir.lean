import Verif.Model.Color
import Verif.Model.Geometry
/-!
# Model of `src/mir.rs`

A petgraph `NodeIndex`/`EdgeIndex` is modelled as a `Nat` position in a list (petgraph hands out indices
`0, 1, 2, …` and this code never removes a node or an edge).  The `u32` limit on indices is not modelled.
-/

namespace Seiren

/-- mir.rs:20-21 `NodeId` (the index). -/
abbrev NodeId := Nat

/-- mir.rs:38-40 `TerminalPortId(NodeId, usize)`. -/
structure TerminalPortId where
  node : NodeId
  index : Nat
  deriving DecidableEq, Repr

/-- mir.rs:148-154 `TerminalPort`. -/
structure TerminalPort where
  id : TerminalPortId
  location : Point
  orientation : Orientation
  deriving DecidableEq, Repr

/-- mir.rs:317-329 `FontFamily`. -/
inductive FontFamily where
  | sansSerif1 | sansSerif2 | sansSerif3 | monospace1 | monospace2
  deriving DecidableEq, Repr

/-- mir.rs:319-328 -/
def FontFamily.display : FontFamily → Str
  | .sansSerif1 => c!"Arial,sans-serif"
  | .sansSerif2 => c!"Verdana,sans-serif"
  | .sansSerif3 => c!"Trebuchet MS,sans-serif"
  | .monospace1 => c!"Monaco,Lucida Console,monospace"
  | .monospace2 => c!"Courier New,monospace"

/-- mir.rs:331-341 `FontWeight`. -/
inductive FontWeight where
  | normal | bold | lighter | bolder
  deriving DecidableEq, Repr

/-- mir.rs:333-340 -/
def FontWeight.display : FontWeight → Str
  | .normal => c!"normal"
  | .bold => c!"bold"
  | .lighter => c!"lighter"
  | .bolder => c!"bolder"

/-- mir.rs:349-368 `FontSize`. -/
inductive FontSize where
  | xxSmall | xSmall | small | medium | large | xLarge | xxLarge | xxxLarge
  deriving DecidableEq, Repr

/-- mir.rs:352-367 -/
def FontSize.display : FontSize → Str
  | .xxSmall => c!"xx-small"
  | .xSmall => c!"x-small"
  | .small => c!"small"
  | .medium => c!"medium"
  | .large => c!"large"
  | .xLarge => c!"x-large"
  | .xxLarge => c!"xx-large"
  | .xxxLarge => c!"xxx-large"

/-- mir.rs:285-294 `TextSpan`; the builder's defaults (`#[builder(default)]`) are the field defaults. -/
structure TextSpan where
  text : Str := []
  color : Option WebColor := none
  fontFamily : Option FontFamily := none
  fontWeight : Option FontWeight := none
  fontSize : Option FontSize := none
  deriving DecidableEq, Repr

/-- mir.rs:296-303 `Badge`. -/
structure Badge where
  text : Str := []
  color : Option WebColor := none
  bgColor : Option WebColor := none
  deriving DecidableEq, Repr

/-- mir.rs:306-314 `Badge::into_text_span`. -/
def Badge.intoTextSpan (b : Badge) : TextSpan :=
  { text := b.text, color := b.color, fontFamily := some .sansSerif3, fontSize := some .xxSmall }

/-- mir.rs:267-273 `RecordShape`. -/
structure RecordShape where
  rounded : Bool := false
  bgColor : Option WebColor := none
  borderColor : Option WebColor := none
  deriving DecidableEq, Repr

/-- mir.rs:275-283 `FieldShape`. -/
structure FieldShape where
  title : TextSpan := {}
  subtitle : Option TextSpan := none
  badge : Option Badge := none
  bgColor : Option WebColor := none
  borderColor : Option WebColor := none
  deriving DecidableEq, Repr

/-- mir.rs:140-145 `ShapeKind`. -/
inductive ShapeKind where
  | body
  | record (r : RecordShape)
  | field (f : FieldShape)
  deriving DecidableEq, Repr

/-- mir.rs:42-54 `NodeData`. -/
structure NodeData where
  origin : Option Point := none
  size : Option Size := none
  terminalPorts : List TerminalPort := []
  kind : ShapeKind
  children : List NodeId := []
  deriving DecidableEq, Repr

/-- mir.rs:57-65 `NodeData::new`. -/
def NodeData.new (kind : ShapeKind) : NodeData := { kind := kind }

/-- mir.rs:77-79 `NodeData::append_child`. -/
def NodeData.appendChild (n : NodeData) (id : NodeId) : NodeData := { n with children := n.children ++ [id] }

/-- mir.rs:82-85 `NodeData::rect`. -/
def NodeData.rect (n : NodeData) : Option Rect :=
  n.origin.bind fun origin => n.size.map fun size => ⟨origin, size⟩

/-- mir.rs:92-103 `NodeData::add_terminal_port` (the returned port id is not used by any caller). -/
def NodeData.addTerminalPort (n : NodeData) (id : NodeId) (loc : Point) (o : Orientation) : NodeData :=
  { n with terminalPorts := n.terminalPorts ++ [⟨⟨id, n.terminalPorts.length⟩, loc, o⟩] }

/-- mir.rs:107-112 `EdgeData`. -/
structure EdgeData where
  sourceId : NodeId
  targetId : NodeId
  pathPoints : Option (List Point) := none
  deriving DecidableEq, Repr

/-- mir.rs:181-184 `Document`: an undirected petgraph graph and the id of the body node.
`nodes[i]` is the weight of node `i`, `edges[i]` the weight of edge `i`.  petgraph also stores the endpoints of
edge `i`; they are the `(sourceId, targetId)` of its weight, because `add_edge` (mir.rs:255-260) is the only way
to add one and neither can be changed afterwards. -/
structure Document where
  nodes : List NodeData
  edges : List EdgeData
  bodyId : NodeId
  deriving DecidableEq, Repr

namespace Document

/-- mir.rs:187-196 `Document::new`. -/
def new : Document := { nodes := [NodeData.new .body], edges := [], bodyId := 0 }

/-- mir.rs:208-210 `Document::get_node`. -/
def getNode (d : Document) (id : NodeId) : Option NodeData := d.nodes[id]?

/-- mir.rs:212-214 `Document::get_node_mut` followed by an in-place update `f` of the node; no effect if the
node does not exist. -/
def modifyNode (d : Document) (id : NodeId) (f : NodeData → NodeData) : Document :=
  { d with nodes := d.nodes.modify id f }

/-- mir.rs:198-200 `Document::body().children()`. The `unwrap` cannot fail: node `body_id` is created in `new`
and nodes are never removed. -/
def bodyChildren (d : Document) : List NodeId :=
  match d.getNode d.bodyId with
  | some b => b.children
  | none => []

/-- mir.rs:218-223 `Document::create_record`. -/
def createRecord (d : Document) (r : RecordShape) : Document × NodeId :=
  ({ d with nodes := d.nodes ++ [NodeData.new (.record r)] }, d.nodes.length)

/-- mir.rs:225-230 `Document::create_field`. -/
def createField (d : Document) (f : FieldShape) : Document × NodeId :=
  ({ d with nodes := d.nodes ++ [NodeData.new (.field f)] }, d.nodes.length)

/-- mir.rs:255-260 `Document::add_edge`.  (petgraph panics if an endpoint does not exist; `into_mir` only passes
ids it has created.) -/
def addEdge (d : Document) (e : EdgeData) : Document := { d with edges := d.edges ++ [e] }

end Document

end Seiren
