import Verif.Model.Ieee
import Verif.Model.Display
/-!
# Layout and rendering with all values of `f32`

`Verif/Model/Ieee.lean` has the functions of geometry.rs on all values of `f32`, with two zeros, two infinities and `NaN`.  Here are
the functions of layout.rs, renderer.rs and main.rs that compute with `f32`, once more, on these values.  Path costs are `u32`s; as
in `Verif/Model/Machine.lean` every sum of costs is passed through a function `w`.

The attributes of an element are texts here: the svg crate turns a value into text when the attribute is set.

What does not compute with `f32` (the graph of the document, petgraph's search, colours, texts) is that of the other model.
-/

namespace Seiren

/-- `n as f32` for a `usize`: the nearest number. -/
def Fl.ofNat (n : Nat) : Fl := Fl.ofRat false n

/-- `Display` of `f32`. -/
def Fl.display : Fl → Str
  | .nan => c!"NaN"
  | .inf s => if s then c!"-inf" else c!"inf"
  | .zero s => if s then c!"-0" else c!"0"
  | .fin q => displayF32 q

/-- mir.rs:148-154 `TerminalPort` -/
structure FlTerminalPort where
  id : TerminalPortId
  location : FlPoint
  orientation : Orientation
  deriving DecidableEq, Repr

/-- mir.rs:42-54 `NodeData` -/
structure FlNodeData where
  origin : Option FlPoint := none
  size : Option FlSize := none
  terminalPorts : List FlTerminalPort := []
  kind : ShapeKind
  children : List NodeId := []
  deriving DecidableEq, Repr

/-- mir.rs:82-85 `NodeData::rect` -/
def FlNodeData.rect (n : FlNodeData) : Option FlRect :=
  n.origin.bind fun origin => n.size.map fun size => ⟨origin, size⟩

/-- mir.rs:92-103 `NodeData::add_terminal_port` -/
def FlNodeData.addTerminalPort (n : FlNodeData) (id : NodeId) (loc : FlPoint) (o : Orientation) : FlNodeData :=
  { n with terminalPorts := n.terminalPorts ++ [⟨⟨id, n.terminalPorts.length⟩, loc, o⟩] }

/-- mir.rs:107-112 `EdgeData` -/
structure FlEdgeData where
  sourceId : NodeId
  targetId : NodeId
  pathPoints : Option (List FlPoint) := none
  deriving DecidableEq, Repr

/-- mir.rs:181-184 `Document`, see `Document`. -/
structure FlDocument where
  nodes : List FlNodeData
  edges : List FlEdgeData
  bodyId : NodeId
  deriving DecidableEq, Repr

/-- The document that `into_mir` makes: it has no coordinates yet (`C96_no_coordinates`). -/
def FlDocument.ofMir (d : Document) : FlDocument :=
  ⟨d.nodes.map fun n => { kind := n.kind, children := n.children },
   d.edges.map fun e => { sourceId := e.sourceId, targetId := e.targetId }, d.bodyId⟩

namespace FlDocument

/-- mir.rs:208-210 `Document::get_node` -/
def getNode (d : FlDocument) (id : NodeId) : Option FlNodeData := d.nodes[id]?

/-- mir.rs:212-214 `Document::get_node_mut` and an update of the node -/
def modifyNode (d : FlDocument) (id : NodeId) (f : FlNodeData → FlNodeData) : FlDocument :=
  { d with nodes := d.nodes.modify id f }

/-- mir.rs:198-200 `Document::body().children()` -/
def bodyChildren (d : FlDocument) : List NodeId :=
  match d.getNode d.bodyId with
  | some b => b.children
  | none => []

end FlDocument

/-! ## layout.rs: placement -/

/-- layout.rs:252 `ORIGIN.x` and `ORIGIN.y` -/
def flOrigin : Fl := .fin 50
/-- layout.rs:253 `LINE_HEIGHT` -/
def flLineHeight : Fl := .fin 35
/-- layout.rs:254 `RECORD_WIDTH` -/
def flRecordWidth : Fl := .fin 300
/-- layout.rs:255 `RECORD_SPACE` -/
def flRecordSpace : Fl := .fin 80
/-- layout.rs:518 `SHAPE_JUNCTION_MARGIN` -/
def flMargin : Fl := Fl.div flRecordSpace Fl.two

/-- layout.rs:300-307, see `placeFields`. -/
def placeFieldsFl (x baseY : Fl) (doc : FlDocument) (fields : List (NodeId × Nat)) : FlDocument :=
  fields.foldl (init := doc) fun doc (fieldId, fieldIndex) =>
    let y := Fl.add baseY (Fl.mul flLineHeight (Fl.ofNat fieldIndex))
    match doc.getNode fieldId with
    | none => doc
    | some n =>
      match n.kind with
      | .field _ =>
        doc.modifyNode fieldId fun n => { n with origin := some ⟨x, y⟩, size := some ⟨flRecordWidth, flLineHeight⟩ }
      | _ => doc

/-- The local variables of the loop, layout.rs:274-275. -/
structure FlPlaceState where
  doc : FlDocument
  baseY : Fl
  maxHeight : Fl

section
variable (tie : Fl → Fl → Bool)

/-- layout.rs:277-308, see `placeRecord`. -/
def placeRecordFl (st : FlPlaceState) (child : NodeId × Nat) : FlPlaceState :=
  let (childId, recordIndex) := child
  -- 278-282
  let st :=
    if recordIndex > 0 ∧ recordIndex % GRID_N_COLUMNS = 0 then
      { st with baseY := Fl.add st.baseY (Fl.add st.maxHeight flRecordSpace), maxHeight := Fl.MIN }
    else st
  -- 284-285
  match st.doc.getNode childId with
  | none => st
  | some record =>
    match record.kind with
    | .record _ =>
      -- 287-295
      let nFields := Fl.ofNat record.children.length
      let x := Fl.add flOrigin (Fl.mul (Fl.add flRecordWidth flRecordSpace) (Fl.ofNat (recordIndex % GRID_N_COLUMNS)))
      let recordHeight := Fl.mul flLineHeight nFields
      let maxHeight := Fl.max tie recordHeight st.maxHeight
      let doc := st.doc.modifyNode childId fun n =>
        { n with origin := some ⟨x, st.baseY⟩, size := some ⟨flRecordWidth, recordHeight⟩ }
      -- 298-307
      let doc := placeFieldsFl x st.baseY doc record.children.zipIdx
      { doc := doc, baseY := st.baseY, maxHeight := maxHeight }
    | _ => st

/-- layout.rs:267-317 `place_nodes` -/
def placeNodesFl (doc : FlDocument) : FlDocument × FlRect :=
  let st := doc.bodyChildren.zipIdx.foldl (placeRecordFl tie) { doc := doc, baseY := flOrigin, maxHeight := Fl.MIN }
  -- 311-316
  let minWidth := Fl.add (Fl.add (Fl.mul flOrigin Fl.two) (Fl.mul (Fl.ofNat GRID_N_COLUMNS) flRecordWidth))
    (Fl.mul (Fl.ofNat (GRID_N_COLUMNS - 1)) flRecordSpace)
  let minHeight := Fl.add (Fl.add st.baseY st.maxHeight) flOrigin
  (st.doc, ⟨⟨Fl.zero0, Fl.zero0⟩, ⟨minWidth, minHeight⟩⟩)

end

/-- layout.rs:334, 356, 364, 372, 379, see `addPorts`. -/
def addPortsFl (id : NodeId) (ports : List (Fl × Fl × Orientation)) (n : FlNodeData) : FlNodeData :=
  ports.foldl (fun n (x, y, d) => n.addTerminalPort id ⟨x, y⟩ d) n

/-- layout.rs:328-333 (and 350-355), see `fourPorts`. -/
def fourPortsFl (r : FlRect) : List (Fl × Fl × Orientation) :=
  [(r.midX, r.minY, .up), (r.maxX, r.midY, .right), (r.midX, r.maxY, .down), (r.minX, r.midY, .left)]

/-- layout.rs:349-381, see `fieldPorts`. -/
def fieldPortsFl (index count : Nat) (r : FlRect) : List (Fl × Fl × Orientation) :=
  if count = 1 then fourPortsFl r
  else if index = 0 then [(r.midX, r.minY, .up), (r.maxX, r.midY, .right), (r.minX, r.midY, .left)]
  else if index = count - 1 then [(r.maxX, r.midY, .right), (r.midX, r.maxY, .down), (r.minX, r.midY, .left)]
  else [(r.maxX, r.midY, .right), (r.minX, r.midY, .left)]

/-- layout.rs:345-382, see `placeFieldPorts`. -/
def placeFieldPortsFl (count : Nat) (doc : FlDocument) (fields : List (NodeId × Nat)) : FlDocument :=
  fields.foldl (init := doc) fun doc (fieldId, fieldIndex) =>
    match doc.getNode fieldId with
    | none => doc
    | some n =>
      match n.rect with
      | none => doc
      | some r => doc.modifyNode fieldId (addPortsFl fieldId (fieldPortsFl fieldIndex count r))

/-- layout.rs:322-383, see `placeRecordPorts`. -/
def placeRecordPortsFl (doc : FlDocument) (childId : NodeId) : FlDocument :=
  match doc.getNode childId with
  | none => doc
  | some record =>
    match record.rect with
    | none => doc
    | some r =>
      let doc := doc.modifyNode childId (addPortsFl childId (fourPortsFl r))
      placeFieldPortsFl record.children.length doc record.children.zipIdx

/-- layout.rs:319-384 `place_terminal_ports` -/
def placeTerminalPortsFl (doc : FlDocument) : FlDocument := doc.bodyChildren.foldl placeRecordPortsFl doc

/-! ## layout.rs: the route graph -/

/-- layout.rs:173-179 `RouteNodeData` -/
structure FlRouteNodeData where
  location : FlPoint
  orientation : Option Orientation
  deriving DecidableEq, Repr

/-- layout.rs:198-203 `RouteNodeData::is_connectable` -/
def FlRouteNodeData.isConnectable (n : FlRouteNodeData) (o : Orientation) : Bool :=
  match n.orientation with
  | none => true
  | some d => d == o

/-- layout.rs:59-62 `RouteGraph`, see `RouteGraph`. -/
structure FlRouteGraph where
  nodes : List FlRouteNodeData
  edges : List (RouteNodeId × RouteNodeId)
  terminalPorts : List (TerminalPortId × RouteNodeId)
  deriving DecidableEq, Repr

/-- `==` of two points, derived (geometry.rs:12): `NaN` is not equal to itself, and the two zeros are equal. -/
def FlPoint.beq (a b : FlPoint) : Bool := Fl.eq a.x b.x && Fl.eq a.y b.y

namespace FlRouteGraph

/-- layout.rs:65-72 `RouteGraph::new` -/
def new : FlRouteGraph := ⟨[], [], []⟩

/-- The graph without the locations, for the functions of petgraph, which do not look at the nodes. -/
def bare (g : FlRouteGraph) : RouteGraph := ⟨g.nodes.map fun n => ⟨Point.zero, n.orientation⟩, g.edges, g.terminalPorts⟩

/-- layout.rs:82-84 `RouteGraph::get_node` -/
def getNode (g : FlRouteGraph) (id : RouteNodeId) : Option FlRouteNodeData := g.nodes[id]?

/-- layout.rs:86-88 `RouteGraph::get_terminal_port` -/
def getTerminalPort (g : FlRouteGraph) (id : TerminalPortId) : Option RouteNodeId := g.terminalPorts.lookup id

/-- layout.rs:104-128 `RouteGraph::_add_node` -/
def addNodeAt (g : FlRouteGraph) (loc : FlPoint) (o : Option Orientation) : Except Panic (FlRouteGraph × RouteNodeId) :=
  match g.nodes.zipIdx.find? (fun p => p.1.location.beq loc) with
  | some (node, i) =>
    if node.orientation ≠ o then .error .orientationConflict else .ok (g, i)
  | none => .ok ({ g with nodes := g.nodes ++ [⟨loc, o⟩] }, g.nodes.length)

/-- layout.rs:90-92 `RouteGraph::add_node` -/
def addNode (g : FlRouteGraph) (loc : FlPoint) : Except Panic (FlRouteGraph × RouteNodeId) := g.addNodeAt loc none

/-- layout.rs:94-102 `RouteGraph::add_terminal_port` -/
def addTerminalPort (g : FlRouteGraph) (p : FlTerminalPort) : Except Panic (FlRouteGraph × RouteNodeId) :=
  match g.addNodeAt p.location (some p.orientation) with
  | .error e => .error e
  | .ok (g, i) => .ok ({ g with terminalPorts := (p.id, i) :: g.terminalPorts }, i)

/-- layout.rs:144-151 `RouteGraph::add_edge` -/
def addEdge (g : FlRouteGraph) (a b : RouteNodeId) : FlRouteGraph :=
  if (g.bare.neighbors a).any (· == b) then g else { g with edges := g.edges ++ [(a, b)] }

/-- The nodes of the graph with their ids, in id order. -/
def indexed (g : FlRouteGraph) : List (RouteNodeId × FlRouteNodeData) := g.nodes.zipIdx.map fun p => (p.2, p.1)

end FlRouteGraph

/-- layout.rs:557-561, 646-650, 678-683, see `shapeRects`. -/
def shapeRectsFl (doc : FlDocument) : List FlRect :=
  (doc.bodyChildren.filterMap doc.getNode).filterMap FlNodeData.rect

/-- The terminal ports of both ends of an edge, see `edgePorts`. -/
def edgePortsFl (doc : FlDocument) (e : FlEdgeData) : List FlTerminalPort :=
  match doc.getNode e.sourceId, doc.getNode e.targetId with
  | some s, some t => s.terminalPorts ++ t.terminalPorts
  | _, _ => []

/-- layout.rs:482-484, see `addJunctions`. -/
def addJunctionsFl (g : FlRouteGraph) : List FlPoint → Except Panic FlRouteGraph
  | [] => .ok g
  | j :: js =>
    match g.addNode j with
    | .error e => .error e
    | .ok (g, _) => addJunctionsFl g js

/-- layout.rs:487-497, see `addTerminalPorts`. -/
def addTerminalPortsFl (g : FlRouteGraph) : List FlTerminalPort → Except Panic FlRouteGraph
  | [] => .ok g
  | p :: ps =>
    match g.addTerminalPort p with
    | .error e => .error e
    | .ok (g, _) => addTerminalPortsFl g ps

/-- layout.rs:694-697, see `Nearest`. -/
structure FlNearest where
  left : Option (RouteNodeId × FlRouteNodeData) := none
  right : Option (RouteNodeId × FlRouteNodeData) := none
  up : Option (RouteNodeId × FlRouteNodeData) := none
  down : Option (RouteNodeId × FlRouteNodeData) := none

/-- layout.rs:719 (and 736, 750, 764), see `takeCandidate`. -/
def takeCandidateFl (cur : Option (RouteNodeId × FlRouteNodeData)) (nearer : FlRouteNodeData → Bool) (noCollision : Bool)
    (cand : RouteNodeId × FlRouteNodeData) : Option (RouteNodeId × FlRouteNodeData) :=
  match cur with
  | none => some cand
  | some c => if nearer c.2 && noCollision then some cand else some c

/-- layout.rs:772-775, see `Nearest.toEdges`. -/
def FlNearest.toEdges (a : RouteNodeId) (s : FlNearest) : List (RouteNodeId × RouteNodeId) :=
  [s.left, s.right, s.up, s.down].filterMap fun d => d.map fun d => (a, d.1)

section
variable (tie : Fl → Fl → Bool)

/-- layout.rs:523-542 `edge_junction_nodes_around_shapes` -/
def junctionsAroundShapesFl (doc : FlDocument) : List FlPoint :=
  (shapeRectsFl doc).flatMap fun r =>
    let j := r.insetBy tie (Fl.neg flMargin) (Fl.neg flMargin)
    [j.origin, ⟨j.maxX, j.minY⟩, ⟨j.maxX, j.maxY⟩, ⟨j.minX, j.maxY⟩]

/-- layout.rs:547-635 `edge_junction_nodes_from_terminal_port` -/
def junctionsFromTerminalPortFl (doc : FlDocument) (port : FlTerminalPort) (others : List FlPoint) : List FlPoint :=
  let rects := (shapeRectsFl doc).map fun r => r.insetBy tie (Fl.neg flMargin) (Fl.neg flMargin)
  let c := port.location
  match port.orientation with
  | .left =>
    -- 568-583
    let lineEnd : FlPoint := ⟨Fl.MIN, c.y⟩
    let minX := rects.foldl (init := Fl.zero0) fun minX r =>
      if Fl.lt r.maxX c.x && r.intersectsLine tie c lineEnd then Fl.max tie minX r.maxX else minX
    others.filterMap fun j => if Fl.le j.x c.x && Fl.le minX j.x then some ⟨j.x, c.y⟩ else none
  | .right =>
    -- 584-599
    let lineEnd : FlPoint := ⟨Fl.MAX, c.y⟩
    let maxX := rects.foldl (init := Fl.MAX) fun maxX r =>
      if Fl.lt c.x r.minX && r.intersectsLine tie c lineEnd then Fl.min tie maxX r.minX else maxX
    others.filterMap fun j => if Fl.le c.x j.x && Fl.le j.x maxX then some ⟨j.x, c.y⟩ else none
  | .up =>
    -- 600-615
    let lineEnd : FlPoint := ⟨c.x, Fl.MAX⟩
    let maxY := rects.foldl (init := Fl.MAX) fun maxY r =>
      if Fl.lt c.y r.minY && r.intersectsLine tie c lineEnd then Fl.min tie maxY r.minY else maxY
    others.filterMap fun j => if Fl.le j.y c.y && Fl.le j.y maxY then some ⟨c.x, j.y⟩ else none
  | .down =>
    -- 616-631
    let lineEnd : FlPoint := ⟨c.x, Fl.MIN⟩
    let minY := rects.foldl (init := Fl.zero0) fun minY r =>
      if Fl.lt r.maxY c.y && r.intersectsLine tie c lineEnd then Fl.max tie minY r.maxY else minY
    others.filterMap fun j => if Fl.le c.y j.y && Fl.le minY j.y then some ⟨c.x, j.y⟩ else none

/-- layout.rs:448-474, see `crossingJunctions`. -/
def crossingJunctionsFl (doc : FlDocument) (shapeJunctions : List FlPoint) : List FlPoint :=
  doc.edges.flatMap fun e =>
    (edgePortsFl doc e).flatMap fun pt => junctionsFromTerminalPortFl tie doc pt shapeJunctions

/-- layout.rs:637-671 `remove_overlapped_junction_nodes` -/
def removeOverlappedFl (doc : FlDocument) (junctions : List FlPoint) : List FlPoint :=
  let rects := (shapeRectsFl doc).map fun r =>
    r.insetBy tie (Fl.neg (Fl.sub flMargin Fl.one)) (Fl.neg (Fl.sub flMargin Fl.one))
  junctions.filter fun j => !rects.any (·.containsPoint j)

/-- layout.rs:699-770, see `nearestStep`. -/
def nearestStepFl (rects : List FlRect) (n : FlRouteNodeData) (acc : FlNearest) (b : RouteNodeId × FlRouteNodeData) : FlNearest :=
  let m := b.2
  let p := n.location
  let q := m.location
  let noCollision := !rects.any (·.intersectsLine tie p q)
  if Fl.eq q.x p.x && Fl.lt q.y p.y then
    if n.isConnectable .up && m.isConnectable .down then
      { acc with up := takeCandidateFl acc.up (fun c => Fl.lt c.location.y q.y) noCollision b }
    else acc
  else if Fl.eq q.x p.x && Fl.lt p.y q.y then
    if n.isConnectable .down && m.isConnectable .up then
      { acc with down := takeCandidateFl acc.down (fun c => Fl.lt q.y c.location.y) noCollision b }
    else acc
  else if Fl.eq q.y p.y && Fl.lt q.x p.x then
    if n.isConnectable .left && m.isConnectable .right then
      { acc with left := takeCandidateFl acc.left (fun c => Fl.lt c.location.x q.x) noCollision b }
    else acc
  else if Fl.eq q.y p.y && Fl.lt p.x q.x then
    if n.isConnectable .right && m.isConnectable .left then
      { acc with right := takeCandidateFl acc.right (fun c => Fl.lt q.x c.location.x) noCollision b }
    else acc
  else acc

/-- layout.rs:694-770, see `nearestOf`. -/
def nearestOfFl (rects : List FlRect) (g : FlRouteGraph) (n : FlRouteNodeData) : FlNearest :=
  g.indexed.foldl (nearestStepFl tie rects n) {}

/-- layout.rs:678-691, see `collisionRects`. -/
def collisionRectsFl (doc : FlDocument) : List FlRect := (shapeRectsFl doc).map fun r => r.insetBy tie Fl.one Fl.one

/-- layout.rs:674-781 `connect_nearest_neighbor_edge_junctions` -/
def connectNearestFl (doc : FlDocument) (g : FlRouteGraph) : FlRouteGraph :=
  let edges := g.indexed.flatMap fun (a, n) => (nearestOfFl tie (collisionRectsFl tie doc) g n).toEdges a
  edges.foldl (fun g (a, b) => g.addEdge a b) g

/-- layout.rs:443-499, see `buildRouteGraph`. -/
def buildRouteGraphFl (doc : FlDocument) (g : FlRouteGraph) : Except Panic FlRouteGraph :=
  let shapeJunctions := junctionsAroundShapesFl tie doc
  let crossing := crossingJunctionsFl tie doc shapeJunctions
  match addJunctionsFl g (removeOverlappedFl tie doc (shapeJunctions ++ crossing)) with
  | .error e => .error e
  | .ok g =>
    match addTerminalPortsFl g (doc.edges.flatMap (edgePortsFl doc)) with
    | .error e => .error e
    | .ok g => .ok (connectNearestFl tie doc g)

end

/-! ## layout.rs: the search -/

/-- layout.rs:836-842: `RouteCost(distance as u32)` -/
def edgeCostFl (g : FlRouteGraph) (a b : RouteNodeId) : Nat :=
  match g.getNode a, g.getNode b with
  | some n, some m => (n.location.distance m.location).toU32
  | _, _ => 0

/-- layout.rs:802-813, see `portPairs`. -/
def portPairsFl (s t : FlNodeData) : List (FlTerminalPort × FlTerminalPort) :=
  s.terminalPorts.flatMap fun src => t.terminalPorts.map fun dst => (src, dst)

/-- layout.rs:815-821, see `pathLocations`. -/
def pathLocationsFl (g : FlRouteGraph) : List RouteNodeId → Except Panic (List FlPoint)
  | [] => .ok []
  | id :: ids =>
    match g.getNode id with
    | none => .error .missingNode
    | some n =>
      match pathLocationsFl g ids with
      | .error e => .error e
      | .ok ps => .ok (n.location :: ps)

/-- layout.rs:511-513, see `assignPaths`. -/
def assignPathsFl : List FlEdgeData → List (List FlPoint) → Except Panic (List FlEdgeData)
  | [], _ => .ok []
  | _ :: _, [] => .error .missingPath
  | e :: es, p :: ps =>
    match assignPathsFl es ps with
    | .error e => .error e
    | .ok es' => .ok ({ e with pathPoints := some p } :: es')

section
variable (w : Nat → Nat)

/-- layout.rs:825-853 `compute_shortest_path` -/
def computeShortestPathFl (q : Queue) (g : FlRouteGraph) (start goal : RouteNodeId) : Except Panic (Nat × List RouteNodeId) :=
  match astarW w q g.bare (edgeCostFl g) start goal with
  | .error e => .error e
  | .ok none => .error .noRoute
  | .ok (some r) => .ok r

/-- layout.rs:799-813, see `bestPath`. -/
def bestPathFl (q : Queue) (g : FlRouteGraph) :
    List (FlTerminalPort × FlTerminalPort) → Nat → Option (List RouteNodeId) → Except Panic (Option (List RouteNodeId))
  | [], _, path => .ok path
  | (src, dst) :: rest, least, path =>
    match g.getTerminalPort src.id with
    | none => bestPathFl q g rest least path
    | some s =>
      match g.getTerminalPort dst.id with
      | none => bestPathFl q g rest least path
      | some t =>
        match computeShortestPathFl w q g s t with
        | .error e => .error e
        | .ok (c, p) => if c < least then bestPathFl q g rest c (some p) else bestPathFl q g rest least path

/-- layout.rs:786-822 `find_shortest_edges_path` -/
def findShortestEdgesPathFl (q : Queue) (doc : FlDocument) (g : FlRouteGraph) (e : FlEdgeData) :
    Except Panic (Option (List FlPoint)) :=
  match doc.getNode e.sourceId, doc.getNode e.targetId with
  | some s, some t =>
    match bestPathFl w q g (portPairsFl s t) ROUTE_COST_MAX none with
    | .error e => .error e
    | .ok none => .ok none
    | .ok (some path) =>
      match pathLocationsFl g path with
      | .error e => .error e
      | .ok ps => .ok (some ps)
  | _, _ => .ok none

/-- layout.rs:503-509, see `collectPaths`. -/
def collectPathsFl (q : Queue) (doc : FlDocument) (g : FlRouteGraph) : List FlEdgeData → Except Panic (List (List FlPoint))
  | [] => .ok []
  | e :: es =>
    match findShortestEdgesPathFl w q doc g e with
    | .error e => .error e
    | .ok r =>
      match collectPathsFl q doc g es with
      | .error e => .error e
      | .ok rest => .ok (match r with | some p => p :: rest | none => rest)

/-- layout.rs:401-514 `draw_edge_path` -/
def drawEdgePathFl (tie : Fl → Fl → Bool) (q : Queue) (doc : FlDocument) (g : FlRouteGraph) :
    Except Panic (FlDocument × FlRouteGraph) :=
  match buildRouteGraphFl tie doc g with
  | .error e => .error e
  | .ok g =>
    match collectPathsFl w q doc g doc.edges with
    | .error e => .error e
    | .ok paths =>
      match assignPathsFl doc.edges paths with
      | .error e => .error e
      | .ok edges => .ok ({ doc with edges := edges }, g)

end

/-! ## renderer.rs -/

/-- An attribute set to a number. -/
def flAttr (k : Str) (x : Fl) : Str × AttrVal := (k, .str x.display)

/-- renderer.rs:238-269 `draw_text` -/
def drawTextFl (span : TextSpan) (origin : FlPoint) (anchor : SVGAnchor) : Element :=
  .mk c!"text"
    ([flAttr c!"x" origin.x, flAttr c!"y" origin.y, (c!"dominant-baseline", .str c!"middle"),
      (c!"text-anchor", .str anchor.textAnchor)]
     ++ colorAttr c!"fill" span.color
     ++ (match span.fontFamily with | some f => [(c!"font-family", .str f.display)] | none => [])
     ++ (match span.fontWeight with | some f => [(c!"font-weight", .str f.display)] | none => [])
     ++ (match span.fontSize with | some f => [(c!"font-size", .str f.display)] | none => []))
    [] (some span.text)

/-- renderer.rs:36 `px` -/
def flPx : Fl := .fin 12
/-- renderer.rs:37 `border_radius` -/
def flBorderRadius : Fl := .fin 6

/-- The attributes of a record's rectangle, renderer.rs:74-80 and 97-103. -/
def recordRectAttrsFl (o : FlPoint) (s : FlSize) : List (Str × AttrVal) :=
  [flAttr c!"x" o.x, flAttr c!"y" o.y, flAttr c!"width" s.width, flAttr c!"height" s.height,
   flAttr c!"rx" flBorderRadius, flAttr c!"ry" flBorderRadius]

/-- renderer.rs:67-86, see `clipPaths`. -/
def clipPathsFl (doc : FlDocument) : List (NodeId × Nat) → Except RenderError (List Element)
  | [] => .ok []
  | (childId, recordIndex) :: rest =>
    match doc.getNode childId with
    | none => clipPathsFl doc rest
    | some n =>
      match n.kind with
      | .record _ =>
        match n.origin with
        | none => .error (.invalidLayout childId)
        | some o =>
          match n.size with
          | none => .error (.invalidLayout childId)
          | some s =>
            match clipPathsFl doc rest with
            | .error e => .error e
            | .ok es =>
              .ok (.mk c!"clipPath" [(c!"id", .str (clipPathId recordIndex))]
                    [leaf c!"rect" (recordRectAttrsFl o s)] none :: es)
      | _ => clipPathsFl doc rest

/-- renderer.rs:120-199, see `drawField`.  (`stroke-width` is set to the integer 1.) -/
def drawFieldFl (clipId : Str) (fieldIndex : Nat) (f : FieldShape) (r : FlRect) : List Element :=
  let x := r.minX
  let y := r.minY
  -- 124-133
  (match f.bgColor with
   | some bg => [leaf c!"rect"
      [flAttr c!"x" x, flAttr c!"y" y, flAttr c!"width" r.size.width, flAttr c!"height" r.size.height,
       (c!"fill", .str bg.display), (c!"clip-path", .str (c!"url(#" ++ clipId ++ c!")"))]]
   | none => [])
  -- 136-148
  ++ (if fieldIndex > 0 then
       [leaf c!"line"
         ([flAttr c!"x1" x, flAttr c!"x2" r.maxX, flAttr c!"y1" y, flAttr c!"y2" y]
          ++ (match f.borderColor with
              | some bc => [(c!"stroke", .str bc.display), (c!"stroke-width", .str c!"1")]
              | none => []))]
      else [])
  -- 161-166
  ++ [drawTextFl f.title ⟨Fl.add x flPx, r.midY⟩ .start]
  -- 158, 169-176
  ++ (match f.subtitle with
      | some s => [drawTextFl s ⟨Fl.add x (Fl.mul (Fl.div r.size.width (.fin 5)) (.fin 4)), r.midY⟩ .end]
      | none => [])
  -- 179-199
  ++ (match f.badge with
      | some b =>
        let rx := Fl.sub r.maxX flPx
        let cy := r.midY
        let bgRadius := Fl.sub (Fl.div r.size.height Fl.two) (.fin 6)
        (match b.bgColor with
         | some bg => [leaf c!"circle"
            [flAttr c!"cx" (Fl.sub rx bgRadius), flAttr c!"cy" cy, flAttr c!"r" bgRadius, (c!"fill", .str bg.display)]]
         | none => [])
        ++ [drawTextFl b.intoTextSpan ⟨Fl.sub rx bgRadius, cy⟩ .middle]
      | none => [])

/-- renderer.rs:115-200, see `drawFields`. -/
def drawFieldsFl (doc : FlDocument) (clipId : Str) : List (NodeId × Nat) → Except RenderError (List Element)
  | [] => .ok []
  | (fieldId, fieldIndex) :: rest =>
    match doc.getNode fieldId with
    | none => drawFieldsFl doc clipId rest
    | some n =>
      match n.kind with
      | .field f =>
        match n.rect with
        | none => .error (.invalidLayout fieldId)
        | some r =>
          match drawFieldsFl doc clipId rest with
          | .error e => .error e
          | .ok es => .ok (drawFieldFl clipId fieldIndex f r ++ es)
      | _ => drawFieldsFl doc clipId rest

/-- renderer.rs:90-201, see `drawRecords`. -/
def drawRecordsFl (doc : FlDocument) : List (NodeId × Nat) → Except RenderError (List Element)
  | [] => .ok []
  | (childId, recordIndex) :: rest =>
    match doc.getNode childId with
    | none => drawRecordsFl doc rest
    | some n =>
      match n.kind with
      | .record rec =>
        match n.origin with
        | none => .error (.invalidLayout childId)
        | some o =>
          match n.size with
          | none => .error (.invalidLayout childId)
          | some s =>
            -- 97-110
            let bg := leaf c!"rect"
              (recordRectAttrsFl o s ++ colorAttr c!"stroke" rec.borderColor ++ colorAttr c!"fill" rec.bgColor)
            match drawFieldsFl doc (clipPathId recordIndex) n.children.zipIdx with
            | .error e => .error e
            | .ok fields =>
              match drawRecordsFl doc rest with
              | .error e => .error e
              | .ok es => .ok (bg :: fields ++ es)
      | _ => drawRecordsFl doc rest

/-- renderer.rs:276 `path_radius` -/
def flPathRadius : Fl := .fin 6

/-- renderer.rs:334-507: the pieces of the `d` attribute. -/
def flMoveTo (p : FlPoint) : Str := c!"M" ++ p.x.display ++ c!" " ++ p.y.display
/-- renderer.rs:337, 348 -/
def flLineTo (p : FlPoint) : Str := c!"L" ++ p.x.display ++ c!" " ++ p.y.display
/-- renderer.rs:366-507 -/
def flQuadTo (c p : FlPoint) : Str :=
  c!"Q" ++ c.x.display ++ c!" " ++ c.y.display ++ c!" " ++ p.x.display ++ c!" " ++ p.y.display

/-- renderer.rs:344-509, see `corner`. -/
def cornerFl (i : Nat) (bp pt fp : FlPoint) : Except Panic (List Str) :=
  match bp.orthogonalDirection pt, pt.orthogonalDirection fp with
  | .up, .up | .down, .down | .left, .left | .right, .right => .ok [flLineTo pt]
  | .up, .down | .down, .up | .left, .right | .right, .left => .error (.turnaround i)
  | .up, .left => .ok [flLineTo ⟨pt.x, Fl.add pt.y flPathRadius⟩, flQuadTo pt ⟨Fl.sub pt.x flPathRadius, pt.y⟩]
  | .right, .down => .ok [flLineTo ⟨Fl.sub pt.x flPathRadius, pt.y⟩, flQuadTo pt ⟨pt.x, Fl.add pt.y flPathRadius⟩]
  | .up, .right => .ok [flLineTo ⟨pt.x, Fl.add pt.y flPathRadius⟩, flQuadTo pt ⟨Fl.add pt.x flPathRadius, pt.y⟩]
  | .down, .left => .ok [flLineTo ⟨pt.x, Fl.sub pt.y flPathRadius⟩, flQuadTo pt ⟨Fl.sub pt.x flPathRadius, pt.y⟩]
  | .down, .right => .ok [flLineTo ⟨pt.x, Fl.sub pt.y flPathRadius⟩, flQuadTo pt ⟨Fl.add pt.x flPathRadius, pt.y⟩]
  | .left, .up => .ok [flLineTo ⟨Fl.add pt.x flPathRadius, pt.y⟩, flQuadTo pt ⟨pt.x, Fl.sub pt.y flPathRadius⟩]
  | .left, .down => .ok [flLineTo ⟨Fl.add pt.x flPathRadius, pt.y⟩, flQuadTo pt ⟨pt.x, Fl.add pt.y flPathRadius⟩]
  | .right, .up => .ok [flLineTo ⟨Fl.sub pt.x flPathRadius, pt.y⟩, flQuadTo pt ⟨pt.x, Fl.sub pt.y flPathRadius⟩]

/-- renderer.rs:330-511, see `pathTail`. -/
def pathTailFl (i : Nat) (bp : FlPoint) : List FlPoint → Except Panic (List Str)
  | [] => .ok []
  | [pt] => .ok [flLineTo pt]
  | pt :: fp :: rest =>
    match cornerFl i bp pt fp with
    | .error e => .error e
    | .ok segs =>
      match pathTailFl (i + 1) pt (fp :: rest) with
      | .error e => .error e
      | .ok segs' => .ok (segs ++ segs')

/-- renderer.rs:288, 328-511, see `pathData`. -/
def pathDataFl : List FlPoint → Except Panic (List Str)
  | p :: q :: rest =>
    match pathTailFl 1 p (q :: rest) with
    | .error e => .error e
    | .ok segs => .ok (flMoveTo p :: segs)
  | _ => .error .pathTooShort

/-- renderer.rs:294-307, see `endCircle`. -/
def endCircleFl (p : FlPoint) : Element :=
  leaf c!"circle"
    [flAttr c!"cx" p.x, flAttr c!"cy" p.y, flAttr c!"r" (.fin 4), (c!"stroke", .str strokeColor.display),
     flAttr c!"stroke-width" (.fin (3/2)), (c!"fill", .str backgroundColor.display)]

/-- renderer.rs:271-520 `draw_edge_connection` -/
def drawEdgeConnectionFl (e : FlEdgeData) : Except RenderError (List Element) :=
  match e.pathPoints with
  | none => .error (.invalidLayout e.sourceId)
  | some points =>
    match pathDataFl points, points.head?, points.getLast? with
    | .ok d, some s, some t =>
      .ok [leaf c!"path"
            [(c!"stroke", .str strokeColor.display), flAttr c!"stroke-width" (.fin (3/2)),
             (c!"fill", .str c!"transparent"), (c!"d", .str (joinWith c!" " d))],
           endCircleFl s, endCircleFl t]
    | .error p, _, _ => .error (.panic p)
    | .ok _, _, _ => .error (.panic .pathTooShort)

/-- renderer.rs:204-207, see `drawEdges`. -/
def drawEdgesFl : List FlEdgeData → Except RenderError (List Element)
  | [] => .ok []
  | e :: es =>
    match drawEdgeConnectionFl e with
    | .error err => .error err
    | .ok els =>
      match drawEdgesFl es with
      | .error err => .error err
      | .ok rest => .ok (els ++ rest)

/-- renderer.rs:35-216 `render` -/
def renderFl (viewBox : Option FlRect) (doc : FlDocument) : Except RenderError Element :=
  match clipPathsFl doc doc.bodyChildren.zipIdx with
  | .error e => .error e
  | .ok clips =>
    match drawRecordsFl doc doc.bodyChildren.zipIdx with
    | .error e => .error e
    | .ok records =>
      match drawEdgesFl doc.edges with
      | .error e => .error e
      | .ok edges =>
        let background := leaf c!"rect"
          [(c!"width", .str c!"100%"), (c!"height", .str c!"100%"), (c!"fill", .str backgroundColor.display)]
        let viewBoxAttr := match viewBox with
          | some v => [(c!"viewBox", AttrVal.str (joinWith c!", "
              [v.minX.display, v.minY.display, v.size.width.display, v.size.height.display]))]
          | none => []
        .ok (.mk c!"svg" viewBoxAttr (background :: .mk c!"defs" [] clips none :: records ++ edges) none)

/-! ## main.rs -/

/-- main.rs:107-131, see `drawModule`. -/
def drawModuleFl (tie : Fl → Fl → Bool) (w : Nat → Nat) (q : Queue) (m : Module) : Except RenderError Element :=
  let (doc, viewBox) := placeNodesFl tie (FlDocument.ofMir m.intoMir)
  let doc := placeTerminalPortsFl doc
  match drawEdgePathFl w tie q doc FlRouteGraph.new with
  | .error p => .error (.panic p)
  | .ok (doc, _) => renderFl (some viewBox) doc

/-- main.rs:107-130, see `stdoutText`.  (All numbers are text already, so any printer of numbers will do.) -/
def stdoutTextFl (tie : Fl → Fl → Bool) (w : Nat → Nat) (q : Queue) (esc : Str → Str) (src : Str) : Option Str :=
  match (parse src).1 with
  | none => some []
  | some m =>
    match drawModuleFl tie w q m with
    | .error _ => none
    | .ok e => some (svgText esc e)

/-- main.rs:26-133, see `finishMain`. -/
def finishMainFl (tie : Fl → Fl → Bool) (w : Nat → Nat) (q : Queue) (esc : Str → Str) (filename : Str) : Option Str → Outcome
  | none => ⟨filename, [], [], .failure⟩
  | some src =>
    match stdoutTextFl tie w q esc src with
    | some text => ⟨filename, errorsOf src, encodeUtf8 text, .success⟩
    | none => ⟨filename, errorsOf src, [], .panic⟩

/-- main.rs:10-134 `main`, see `runProgram`. -/
def runProgramFl (tie : Fl → Fl → Bool) (w : Nat → Nat) (q : Queue) (esc : Str → Str) (world : World) : Outcome :=
  match world.args[1]? with
  | some path => finishMainFl tie w q esc path (readToString (world.file path))
  | none => finishMainFl tie w q esc c!"(stdin)" (readToString world.stdin)

end Seiren
