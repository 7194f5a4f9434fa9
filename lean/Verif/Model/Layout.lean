import Verif.Model.Erd
import Verif.Model.Route
/-! # Model of `src/layout.rs`: `SimpleLayoutEngine` -/

namespace Seiren

/-! ## Constants, layout.rs:252-258, 518 -/

/-- layout.rs:252 `ORIGIN` -/
def ORIGIN : Point := ⟨50, 50⟩
/-- layout.rs:253 `LINE_HEIGHT` -/
def LINE_HEIGHT : Rat := 35
/-- layout.rs:254 `RECORD_WIDTH` -/
def RECORD_WIDTH : Rat := 300
/-- layout.rs:255 `RECORD_SPACE` -/
def RECORD_SPACE : Rat := 80
/-- layout.rs:258 `GRID_N_COLUMNS` -/
def GRID_N_COLUMNS : Nat := 3
/-- layout.rs:518 `SHAPE_JUNCTION_MARGIN` -/
def SHAPE_JUNCTION_MARGIN : Rat := RECORD_SPACE / 2

/-! ## `place_nodes` -/

/-- layout.rs:300-307: place the children of a record. -/
def placeFields (x baseY : Rat) (doc : Document) (fields : List (NodeId × Nat)) : Document :=
  fields.foldl (init := doc) fun doc (fieldId, fieldIndex) =>
    let y := baseY + LINE_HEIGHT * fieldIndex
    match doc.getNode fieldId with
    | none => doc
    | some n =>
      match n.kind with
      | .field _ =>
        doc.modifyNode fieldId fun n =>
          { n with origin := some ⟨x, y⟩, size := some ⟨RECORD_WIDTH, LINE_HEIGHT⟩ }
      | _ => doc

/-- The local variables of the loop, layout.rs:274-275. -/
structure PlaceState where
  doc : Document
  baseY : Rat
  maxHeight : Rat

/-- layout.rs:277-308: one iteration of the loop over the records. -/
def placeRecord (st : PlaceState) (child : NodeId × Nat) : PlaceState :=
  let (childId, recordIndex) := child
  -- 278-282
  let st :=
    if recordIndex > 0 ∧ recordIndex % GRID_N_COLUMNS = 0 then
      { st with baseY := st.baseY + (st.maxHeight + RECORD_SPACE), maxHeight := f32Min }
    else st
  -- 284-285
  match st.doc.getNode childId with
  | none => st
  | some record =>
    match record.kind with
    | .record _ =>
      -- 287-295
      let nFields : Rat := record.children.length
      let x := ORIGIN.x + (RECORD_WIDTH + RECORD_SPACE) * (recordIndex % GRID_N_COLUMNS : Nat)
      let recordHeight := LINE_HEIGHT * nFields
      let maxHeight := max recordHeight st.maxHeight
      let doc := st.doc.modifyNode childId fun n =>
        { n with origin := some ⟨x, st.baseY⟩, size := some ⟨RECORD_WIDTH, recordHeight⟩ }
      -- 298-307
      let doc := placeFields x st.baseY doc record.children.zipIdx
      { doc := doc, baseY := st.baseY, maxHeight := maxHeight }
    | _ => st

/-- layout.rs:267-317 `place_nodes`: the new document and the view box. -/
def placeNodes (doc : Document) : Document × Rect :=
  let st := doc.bodyChildren.zipIdx.foldl placeRecord { doc := doc, baseY := ORIGIN.y, maxHeight := f32Min }
  -- 311-316
  let minWidth := ORIGIN.x * 2 + (GRID_N_COLUMNS : Rat) * RECORD_WIDTH
    + ((GRID_N_COLUMNS - 1 : Nat) : Rat) * RECORD_SPACE
  let minHeight := st.baseY + st.maxHeight + ORIGIN.y
  (st.doc, ⟨Point.zero, ⟨minWidth, minHeight⟩⟩)

/-! ## `place_terminal_ports` -/

/-- layout.rs:334, 356, 364, 372, 379: add the listed ports to a node. -/
def addPorts (id : NodeId) (ports : List (Rat × Rat × Orientation)) (n : NodeData) : NodeData :=
  ports.foldl (fun n (x, y, d) => n.addTerminalPort id ⟨x, y⟩ d) n

/-- layout.rs:328-333 (and 350-355): the centers of the four edges of a rectangle. -/
def fourPorts (r : Rect) : List (Rat × Rat × Orientation) :=
  [(r.midX, r.minY, .up), (r.maxX, r.midY, .right), (r.midX, r.maxY, .down), (r.minX, r.midY, .left)]

/-- layout.rs:349-381: the ports of the field at `index` among `count` fields. -/
def fieldPorts (index count : Nat) (r : Rect) : List (Rat × Rat × Orientation) :=
  if count = 1 then fourPorts r
  else if index = 0 then [(r.midX, r.minY, .up), (r.maxX, r.midY, .right), (r.minX, r.midY, .left)]
  else if index = count - 1 then [(r.maxX, r.midY, .right), (r.midX, r.maxY, .down), (r.minX, r.midY, .left)]
  else [(r.maxX, r.midY, .right), (r.minX, r.midY, .left)]

/-- layout.rs:345-382: the ports of the fields of one record. -/
def placeFieldPorts (count : Nat) (doc : Document) (fields : List (NodeId × Nat)) : Document :=
  fields.foldl (init := doc) fun doc (fieldId, fieldIndex) =>
    match doc.getNode fieldId with
    | none => doc
    | some n =>
      match n.rect with
      | none => doc
      | some r => doc.modifyNode fieldId (addPorts fieldId (fieldPorts fieldIndex count r))

/-- layout.rs:322-383: one iteration of the loop over the records. -/
def placeRecordPorts (doc : Document) (childId : NodeId) : Document :=
  match doc.getNode childId with
  | none => doc
  | some record =>
    match record.rect with
    | none => doc
    | some r =>
      let doc := doc.modifyNode childId (addPorts childId (fourPorts r))
      placeFieldPorts record.children.length doc record.children.zipIdx

/-- layout.rs:319-384 `place_terminal_ports`. -/
def placeTerminalPorts (doc : Document) : Document := doc.bodyChildren.foldl placeRecordPorts doc

/-! ## `draw_edge_path` -/

/-- `doc.body().children().filter_map(get_node).filter_map(rect)` (layout.rs:557-561, 646-650, 678-683): the
rectangles of the placed top-level nodes. -/
def shapeRects (doc : Document) : List Rect :=
  (doc.bodyChildren.filterMap doc.getNode).filterMap NodeData.rect

/-- layout.rs:523-542 `edge_junction_nodes_around_shapes`. -/
def junctionsAroundShapes (doc : Document) : List Point :=
  (shapeRects doc).flatMap fun r =>
    let j := r.insetBy (-SHAPE_JUNCTION_MARGIN) (-SHAPE_JUNCTION_MARGIN)
    [j.origin, ⟨j.maxX, j.minY⟩, ⟨j.maxX, j.maxY⟩, ⟨j.minX, j.maxY⟩]

/-- layout.rs:547-635 `edge_junction_nodes_from_terminal_port`. -/
def junctionsFromTerminalPort (doc : Document) (port : TerminalPort) (others : List Point) : List Point :=
  let rects := (shapeRects doc).map fun r => r.insetBy (-SHAPE_JUNCTION_MARGIN) (-SHAPE_JUNCTION_MARGIN)
  let c := port.location
  match port.orientation with
  | .left =>
    -- 568-583
    let lineEnd : Point := ⟨f32Min, c.y⟩
    let minX := rects.foldl (init := (0 : Rat)) fun minX r =>
      if r.maxX < c.x ∧ r.intersectsLine c lineEnd then max minX r.maxX else minX
    others.filterMap fun j => if j.x ≤ c.x ∧ j.x ≥ minX then some ⟨j.x, c.y⟩ else none
  | .right =>
    -- 584-599
    let lineEnd : Point := ⟨f32Max, c.y⟩
    let maxX := rects.foldl (init := f32Max) fun maxX r =>
      if r.minX > c.x ∧ r.intersectsLine c lineEnd then min maxX r.minX else maxX
    others.filterMap fun j => if j.x ≥ c.x ∧ j.x ≤ maxX then some ⟨j.x, c.y⟩ else none
  | .up =>
    -- 600-615
    let lineEnd : Point := ⟨c.x, f32Max⟩
    let maxY := rects.foldl (init := f32Max) fun maxY r =>
      if r.minY > c.y ∧ r.intersectsLine c lineEnd then min maxY r.minY else maxY
    others.filterMap fun j => if j.y ≤ c.y ∧ j.y ≤ maxY then some ⟨c.x, j.y⟩ else none
  | .down =>
    -- 616-631
    let lineEnd : Point := ⟨c.x, f32Min⟩
    let minY := rects.foldl (init := (0 : Rat)) fun minY r =>
      if r.maxY < c.y ∧ r.intersectsLine c lineEnd then max minY r.maxY else minY
    others.filterMap fun j => if j.y ≥ c.y ∧ j.y ≥ minY then some ⟨c.x, j.y⟩ else none

/-- The terminal ports of both ends of an edge, source first (layout.rs:450-474 and 487-497). -/
def edgePorts (doc : Document) (e : EdgeData) : List TerminalPort :=
  match doc.getNode e.sourceId, doc.getNode e.targetId with
  | some s, some t => s.terminalPorts ++ t.terminalPorts
  | _, _ => []

/-- layout.rs:448-474: the crossing junctions of all edges. -/
def crossingJunctions (doc : Document) (shapeJunctions : List Point) : List Point :=
  doc.edges.flatMap fun e =>
    (edgePorts doc e).flatMap fun pt => junctionsFromTerminalPort doc pt shapeJunctions

/-- layout.rs:637-671 `remove_overlapped_junction_nodes`. -/
def removeOverlapped (doc : Document) (junctions : List Point) : List Point :=
  let rects := (shapeRects doc).map fun r =>
    r.insetBy (-(SHAPE_JUNCTION_MARGIN - 1)) (-(SHAPE_JUNCTION_MARGIN - 1))
  junctions.filter fun j => !rects.any (·.containsPoint j)

/-- layout.rs:482-484: add the junctions to the graph. -/
def addJunctions (g : RouteGraph) : List Point → Except Panic RouteGraph
  | [] => .ok g
  | j :: js =>
    match g.addNode j with
    | .error e => .error e
    | .ok (g, _) => addJunctions g js

/-- layout.rs:487-497: add the terminal ports to the graph. -/
def addTerminalPorts (g : RouteGraph) : List TerminalPort → Except Panic RouteGraph
  | [] => .ok g
  | p :: ps =>
    match g.addTerminalPort p with
    | .error e => .error e
    | .ok (g, _) => addTerminalPorts g ps

/-- layout.rs:694-697: the neighbours found so far. -/
structure Nearest where
  left : Option (RouteNodeId × RouteNodeData) := none
  right : Option (RouteNodeId × RouteNodeData) := none
  up : Option (RouteNodeId × RouteNodeData) := none
  down : Option (RouteNodeId × RouteNodeData) := none

/-- layout.rs:719 (and 736, 750, 764): `cur.is_none() || nearer(cur) && no_collision()`; note that `&&` binds
tighter than `||`, so the first candidate is taken without a collision check. -/
def takeCandidate (cur : Option (RouteNodeId × RouteNodeData)) (nearer : RouteNodeData → Bool) (noCollision : Bool)
    (cand : RouteNodeId × RouteNodeData) : Option (RouteNodeId × RouteNodeData) :=
  match cur with
  | none => some cand
  | some c => if nearer c.2 && noCollision then some cand else some c

/-- layout.rs:699-770: consider node `b` (data `m`) as a neighbour of the node with data `n`.  `rects` are the
shapes inset by 1 (layout.rs:678-691). -/
def nearestStep (rects : List Rect) (n : RouteNodeData) (acc : Nearest) (b : RouteNodeId × RouteNodeData) : Nearest :=
  let m := b.2
  let p := n.location
  let q := m.location
  let noCollision := !rects.any (·.intersectsLine p q)
  if q.x = p.x ∧ q.y < p.y then
    if n.isConnectable .up && m.isConnectable .down then
      { acc with up := takeCandidate acc.up (fun c => decide (c.location.y < q.y)) noCollision b }
    else acc
  else if q.x = p.x ∧ q.y > p.y then
    if n.isConnectable .down && m.isConnectable .up then
      { acc with down := takeCandidate acc.down (fun c => decide (c.location.y > q.y)) noCollision b }
    else acc
  else if q.y = p.y ∧ q.x < p.x then
    if n.isConnectable .left && m.isConnectable .right then
      { acc with left := takeCandidate acc.left (fun c => decide (c.location.x < q.x)) noCollision b }
    else acc
  else if q.y = p.y ∧ q.x > p.x then
    if n.isConnectable .right && m.isConnectable .left then
      { acc with right := takeCandidate acc.right (fun c => decide (c.location.x > q.x)) noCollision b }
    else acc
  else acc

/-- The nodes of the graph with their ids, in id order. -/
def RouteGraph.indexed (g : RouteGraph) : List (RouteNodeId × RouteNodeData) :=
  g.nodes.zipIdx.map fun p => (p.2, p.1)

/-- layout.rs:694-770: the neighbours of one node. -/
def nearestOf (rects : List Rect) (g : RouteGraph) (n : RouteNodeData) : Nearest :=
  g.indexed.foldl (nearestStep rects n) {}

/-- layout.rs:772-775: the edges of one node, in the order left, right, up, down. -/
def Nearest.toEdges (a : RouteNodeId) (s : Nearest) : List (RouteNodeId × RouteNodeId) :=
  [s.left, s.right, s.up, s.down].filterMap fun d => d.map fun d => (a, d.1)

/-- layout.rs:678-691: the shapes, inset by 1. -/
def collisionRects (doc : Document) : List Rect := (shapeRects doc).map fun r => r.insetBy 1 1

/-- layout.rs:674-781 `connect_nearest_neighbor_edge_junctions`. -/
def connectNearest (doc : Document) (g : RouteGraph) : RouteGraph :=
  let edges := g.indexed.flatMap fun (a, n) => (nearestOf (collisionRects doc) g n).toEdges a
  edges.foldl (fun g (a, b) => g.addEdge a b) g

/-- layout.rs:233 `RouteCost::MAX`. -/
def ROUTE_COST_MAX : Nat := 4294967295

/-- layout.rs:802-813: all pairs of terminal ports, source ports in the outer loop. -/
def portPairs (s t : NodeData) : List (TerminalPort × TerminalPort) :=
  s.terminalPorts.flatMap fun src => t.terminalPorts.map fun dst => (src, dst)

/-- layout.rs:799-813: the best `(cost, path)` over the port pairs. -/
def bestPath (q : Queue) (g : RouteGraph) :
    List (TerminalPort × TerminalPort) → Nat → Option (List RouteNodeId) → Except Panic (Option (List RouteNodeId))
  | [], _, path => .ok path
  | (src, dst) :: rest, cost, path =>
    match g.getTerminalPort src.id with
    | none => bestPath q g rest cost path
    | some s =>
      match g.getTerminalPort dst.id with
      | none => bestPath q g rest cost path
      | some t =>
        match computeShortestPath q g s t with
        | .error e => .error e
        | .ok (c, p) => if c < cost then bestPath q g rest c (some p) else bestPath q g rest cost path

/-- layout.rs:815-821: the locations of the nodes of a path. -/
def pathLocations (g : RouteGraph) : List RouteNodeId → Except Panic (List Point)
  | [] => .ok []
  | id :: ids =>
    match g.getNode id with
    | none => .error .missingNode
    | some n =>
      match pathLocations g ids with
      | .error e => .error e
      | .ok ps => .ok (n.location :: ps)

/-- layout.rs:786-822 `find_shortest_edges_path`. -/
def findShortestEdgesPath (q : Queue) (doc : Document) (g : RouteGraph) (e : EdgeData) :
    Except Panic (Option (List Point)) :=
  match doc.getNode e.sourceId, doc.getNode e.targetId with
  | some s, some t =>
    match bestPath q g (portPairs s t) ROUTE_COST_MAX none with
    | .error e => .error e
    | .ok none => .ok none
    | .ok (some path) =>
      match pathLocations g path with
      | .error e => .error e
      | .ok ps => .ok (some ps)
  | _, _ => .ok none

/-- layout.rs:503-509: the queue of the paths that were found. -/
def collectPaths (q : Queue) (doc : Document) (g : RouteGraph) : List EdgeData → Except Panic (List (List Point))
  | [] => .ok []
  | e :: es =>
    match findShortestEdgesPath q doc g e with
    | .error e => .error e
    | .ok r =>
      match collectPaths q doc g es with
      | .error e => .error e
      | .ok rest => .ok (match r with | some p => p :: rest | none => rest)

/-- layout.rs:511-513: hand the paths to the edges, in order; `pop_front().unwrap()` panics if none is left. -/
def assignPaths : List EdgeData → List (List Point) → Except Panic (List EdgeData)
  | [], _ => .ok []
  | _ :: _, [] => .error .missingPath
  | e :: es, p :: ps =>
    match assignPaths es ps with
    | .error e => .error e
    | .ok es' => .ok ({ e with pathPoints := some p } :: es')

/-- layout.rs:443-499: the route graph of a document, starting from the engine's graph `g` (the graph of a new
engine is `RouteGraph.new`; it is kept between calls). -/
def buildRouteGraph (doc : Document) (g : RouteGraph) : Except Panic RouteGraph :=
  let shapeJunctions := junctionsAroundShapes doc
  let crossing := crossingJunctions doc shapeJunctions
  match addJunctions g (removeOverlapped doc (shapeJunctions ++ crossing)) with
  | .error e => .error e
  | .ok g =>
    match addTerminalPorts g (doc.edges.flatMap (edgePorts doc)) with
    | .error e => .error e
    | .ok g => .ok (connectNearest doc g)

/-- layout.rs:401-514 `draw_edge_path`: the new document and the engine's route graph. -/
def drawEdgePath (q : Queue) (doc : Document) (g : RouteGraph) : Except Panic (Document × RouteGraph) :=
  match buildRouteGraph doc g with
  | .error e => .error e
  | .ok g =>
    match collectPaths q doc g doc.edges with
    | .error e => .error e
    | .ok paths =>
      match assignPaths doc.edges paths with
      | .error e => .error e
      | .ok edges => .ok ({ doc with edges := edges }, g)

end Seiren
