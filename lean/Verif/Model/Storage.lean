import Verif.Model.Machine
import Verif.Model.BinaryHeap
import Verif.Model.Main
/-!
# How graphs and the queue are stored

The other models keep a graph as two lists and read the neighbours of a node off the list of edges; they swap entries of the heap.  Here
the data structures of the libraries are modelled as they are in memory: petgraph 0.6.2's `Graph` with its indices of 32 bits, where
every node and every edge holds the heads of two linked lists of edges, and std's `BinaryHeap` with its moving hole.  The documents of
mir.rs and the route graph of layout.rs are built on them.  The libraries' sources are not in the sandbox; this follows their published
sources (trusted base).
-/

namespace Seiren

/-! ## petgraph `Graph<N, E, Undirected, u32>` -/

namespace Pg

/-- `EdgeIndex::end()`, `NodeIndex::end()`: `u32::MAX`. -/
def endIndex : Nat := 4294967295

/-- petgraph `graph_impl::Node`: `next` are the first outgoing and the first incoming edge. -/
structure Node (N : Type) where
  weight : N
  next : Nat × Nat
  deriving DecidableEq, Repr

/-- petgraph `graph_impl::Edge`: `next` are the next edges in the lists of the first and of the second end. -/
structure Edge (E : Type) where
  weight : E
  next : Nat × Nat
  node : Nat × Nat
  deriving DecidableEq, Repr

/-- petgraph `Graph`. -/
structure Graph (N E : Type) where
  nodes : List (Node N)
  edges : List (Edge E)
  deriving DecidableEq, Repr

/-- What can go wrong: a panic of seiren's own, a graph without room for another index, an index that is not in the graph. -/
inductive Fault where
  | panic (p : Panic)
  | full
  | outOfBounds
  deriving DecidableEq, Repr

/-- petgraph `EdgeReference`: `index`, `source()`, `target()`. -/
structure EdgeRef where
  index : Nat
  source : Nat
  target : Nat
  deriving DecidableEq, Repr

namespace Graph
variable {N E : Type}

/-- petgraph `Graph::new_undirected`. -/
def new : Graph N E := ⟨[], []⟩

/-- petgraph `Graph::node_weight`. -/
def nodeWeight (g : Graph N E) (i : Nat) : Option N := g.nodes[i]?.map Node.weight

/-- petgraph `Graph::node_weight_mut` and an update. -/
def modifyWeight (g : Graph N E) (i : Nat) (f : N → N) : Graph N E :=
  { g with nodes := g.nodes.modify i fun n => { n with weight := f n.weight } }

/-- petgraph `Graph::node_weights`. -/
def nodeWeights (g : Graph N E) : List N := g.nodes.map Node.weight

/-- petgraph `Graph::edge_weights`. -/
def edgeWeights (g : Graph N E) : List E := g.edges.map Edge.weight

/-- petgraph `Graph::edge_endpoints`. -/
def edgeEndpoints (g : Graph N E) (i : Nat) : Option (Nat × Nat) := g.edges[i]?.map Edge.node

/-- petgraph `Graph::add_node`. -/
def addNode (g : Graph N E) (w : N) : Except Fault (Graph N E × Nat) :=
  if g.nodes.length = endIndex then .error .full
  else .ok ({ g with nodes := g.nodes ++ [⟨w, (endIndex, endIndex)⟩] }, g.nodes.length)

/-- petgraph `Graph::add_edge`. -/
def addEdge (g : Graph N E) (a b : Nat) (w : E) : Except Fault (Graph N E × Nat) :=
  let i := g.edges.length
  if i = endIndex then .error .full
  else
    match g.nodes[a]?, g.nodes[b]? with
    | some an, some bn =>
      if a = b then
        -- `Pair::One(an)`
        .ok (⟨g.nodes.modify a fun n => { n with next := (i, i) }, g.edges ++ [⟨w, an.next, (a, b)⟩]⟩, i)
      else
        -- `Pair::Both(an, bn)`
        .ok (⟨(g.nodes.modify a fun n => { n with next := (i, n.next.2) }).modify b fun n => { n with next := (n.next.1, i) },
          g.edges ++ [⟨w, (an.next.1, bn.next.2), (a, b)⟩]⟩, i)
    | _, _ => .error .outOfBounds

/-- petgraph `Edges::next`, the loop over the incoming edges, which leaves out edges from the node to itself.  The list of an edge
`i` goes on at edges before `i` (`C97_lists`), so the number of edges is enough fuel. -/
def stepIncoming (g : Graph N E) (a : Nat) : Nat → Nat → Option (EdgeRef × Nat)
  | 0, _ => none
  | fuel + 1, i =>
    match g.edges[i]? with
    | none => none
    | some e => if e.node.1 = a then stepIncoming g a fuel e.next.2 else some (⟨i, e.node.2, e.node.1⟩, e.next.2)

/-- petgraph `Edges::next` for undirected graphs: the outgoing edges as they are, then the incoming ones reversed. -/
def step (g : Graph N E) (a : Nat) (next : Nat × Nat) : Option (EdgeRef × (Nat × Nat)) :=
  match g.edges[next.1]? with
  | some e => some (⟨next.1, e.node.1, e.node.2⟩, (e.next.1, next.2))
  | none => (stepIncoming g a (g.edges.length + 1) next.2).map fun r => (r.1, (next.1, r.2))

/-- All that the iterator yields (fuel: an edge occurs in two lists). -/
def collect (g : Graph N E) (a : Nat) : Nat → Nat × Nat → List EdgeRef
  | 0, _ => []
  | fuel + 1, next =>
    match g.step a next with
    | none => []
    | some (r, next) => r :: collect g a fuel next

/-- petgraph `Graph::edges(a)`: where its iterator starts. -/
def firstEdges (g : Graph N E) (a : Nat) : Nat × Nat :=
  match g.nodes[a]? with
  | none => (endIndex, endIndex)
  | some n => n.next

/-- petgraph `Graph::edges(a)`. -/
def edgesOf (g : Graph N E) (a : Nat) : List EdgeRef := collect g a (2 * g.edges.length + 1) (g.firstEdges a)

end Graph
end Pg

/-! ## std `BinaryHeap` -/

namespace HoleHeap

/-- std `binary_heap::Hole`: the entry that was taken out, and the position of the hole.  The old entry stays in the array. -/
structure Hole where
  data : List Entry
  elt : Entry
  pos : Nat

/-- std `Hole::new`. -/
def Hole.new (data : List Entry) (pos : Nat) : Hole := ⟨data, BinHeap.at' data pos, pos⟩

/-- std `Hole::get`. -/
def Hole.get (h : Hole) (i : Nat) : Entry := BinHeap.at' h.data i

/-- std `Hole::move_to`: the entry at `i` is copied into the hole, which is then at `i`. -/
def Hole.moveTo (h : Hole) (i : Nat) : Hole := { h with data := h.data.set h.pos (h.get i), pos := i }

/-- std `Drop for Hole`: the entry is put into the hole. -/
def Hole.fill (h : Hole) : List Entry := h.data.set h.pos h.elt

/-- std `BinaryHeap::sift_up(0, pos)`, the loop. -/
def siftUp : Nat → Hole → Hole
  | 0, h => h
  | fuel + 1, h =>
    if h.pos > 0 then
      let parent := (h.pos - 1) / 2
      if h.elt.1 ≥ (h.get parent).1 then h else siftUp fuel (h.moveTo parent)
    else h

/-- std `BinaryHeap::sift_down_to_bottom(0)`, the loop and the last step.  `len` is the length of the array. -/
def siftToBottom (len : Nat) : Nat → Hole → Hole
  | 0, h => h
  | fuel + 1, h =>
    let child := 2 * h.pos + 1
    -- `child <= end.saturating_sub(2)`
    if child ≤ len - 2 then
      let child := child + if (h.get child).1 ≥ (h.get (child + 1)).1 then 1 else 0
      siftToBottom len fuel (h.moveTo child)
    else if child = len - 1 then h.moveTo child
    else h

/-- std `BinaryHeap::push`. -/
def push (h : List Entry) (e : Entry) : List Entry :=
  let oldLen := h.length
  (siftUp oldLen (Hole.new (h ++ [e]) oldLen)).fill

/-- std `BinaryHeap::pop`: the last entry is exchanged with the first. -/
def pop (h : List Entry) : Option (Entry × List Entry) :=
  match h.getLast? with
  | none => none
  | some item =>
    match h.dropLast with
    | [] => some (item, [])
    | root :: tail =>
      let data := item :: tail
      let hole := siftToBottom data.length data.length (Hole.new data 0)
      some (root, (siftUp hole.pos (Hole.new hole.fill hole.pos)).fill)

/-- std's `BinaryHeap` as a `Queue`. -/
def queue : Queue := ⟨push, pop⟩

end HoleHeap

open Pg (Fault EdgeRef)

/-! ## mir.rs -/

/-- mir.rs:181-184 `Document`. -/
structure PgDocument where
  graph : Pg.Graph NodeData EdgeData
  bodyId : NodeId
  deriving DecidableEq, Repr

namespace PgDocument

/-- The document of the other models: the weights. -/
def plain (d : PgDocument) : Document := ⟨d.graph.nodeWeights, d.graph.edgeWeights, d.bodyId⟩

/-- mir.rs:187-196 `Document::new` -/
def new : Except Fault PgDocument :=
  match Pg.Graph.addNode Pg.Graph.new (NodeData.new .body) with
  | .error e => .error e
  | .ok (g, i) => .ok ⟨g, i⟩

/-- mir.rs:218-223 `Document::create_record` -/
def createRecord (d : PgDocument) (r : RecordShape) : Except Fault (PgDocument × NodeId) :=
  match d.graph.addNode (NodeData.new (.record r)) with
  | .error e => .error e
  | .ok (g, i) => .ok (⟨g, d.bodyId⟩, i)

/-- mir.rs:225-230 `Document::create_field` -/
def createField (d : PgDocument) (f : FieldShape) : Except Fault (PgDocument × NodeId) :=
  match d.graph.addNode (NodeData.new (.field f)) with
  | .error e => .error e
  | .ok (g, i) => .ok (⟨g, d.bodyId⟩, i)

/-- mir.rs:212-214 and an update; 202-204 `body_mut` is the same with `body_id`. -/
def modifyNode (d : PgDocument) (id : NodeId) (f : NodeData → NodeData) : PgDocument := { d with graph := d.graph.modifyWeight id f }

/-- mir.rs:255-260 `Document::add_edge` -/
def addEdge (d : PgDocument) (e : EdgeData) : Except Fault PgDocument :=
  match d.graph.addEdge e.sourceId e.targetId e with
  | .error e => .error e
  | .ok (g, _) => .ok ⟨g, d.bodyId⟩

/-- mir.rs:233-237 `Document::edge_endpoints` -/
def edgeEndpoints (d : PgDocument) (i : Nat) : Option (NodeId × NodeId) := d.graph.edgeEndpoints i

/-- mir.rs:243-245 `Document::edge_ids` -/
def edgeIds (d : PgDocument) : List Nat := List.range d.graph.edges.length

/-- `place_nodes` and `place_terminal_ports` use `body`, `get_node` and `get_node_mut` only: they change weights of nodes.  `f` is what
they do to the document of the other models. -/
def updateNodes (d : PgDocument) (f : Document → Document) : PgDocument :=
  { d with graph := { d.graph with nodes := d.graph.nodes.zipWith (fun n w => { n with weight := w }) (f d.plain).nodes } }

/-- mir.rs:251-253 `Document::edges_mut`: new weights for the edges. -/
def setEdges (d : PgDocument) (ws : List EdgeData) : PgDocument :=
  { d with graph := { d.graph with edges := d.graph.edges.zipWith (fun e w => { e with weight := w }) ws } }

end PgDocument

/-! ## erd.rs -/

/-- erd.rs:78-115, see `addFields`. -/
def addFieldsPg (entity : Str) : List EntityField → PgDocument → NodePaths → Except Fault (PgDocument × NodePaths × List NodeId)
  | [], doc, paths => .ok (doc, paths, [])
  | f :: fs, doc, paths =>
    match doc.createField (fieldShape f) with
    | .error e => .error e
    | .ok (doc, id) =>
      match addFieldsPg entity fs doc (paths.insert (.field entity f.name) id) with
      | .error e => .error e
      | .ok (doc, paths, ids) => .ok (doc, paths, id :: ids)

/-- erd.rs:54-128, see `addDefinition`. -/
def addDefinitionPg (d : EntityDefinition) (doc : PgDocument) (paths : NodePaths) : Except Fault (PgDocument × NodePaths) :=
  match doc.createField (headerShape d) with
  | .error e => .error e
  | .ok (doc, headerId) =>
    match addFieldsPg d.name d.fields doc paths with
    | .error e => .error e
    | .ok (doc, paths, fieldIds) =>
      match doc.createRecord recordShape with
      | .error e => .error e
      | .ok (doc, recordId) =>
        let paths := paths.insert (.entity d.name) recordId
        let doc := doc.modifyNode recordId fun n => fieldIds.foldl NodeData.appendChild (n.appendChild headerId)
        .ok (doc.modifyNode doc.bodyId (·.appendChild recordId), paths)

/-- erd.rs:129-134, see `addRelation`. -/
def addRelationPg (r : EntityRelation) (doc : PgDocument) (paths : NodePaths) : Except Fault PgDocument :=
  match paths.get r.startPath with
  | none => .ok doc
  | some s =>
    match paths.get r.endPath with
    | none => .ok doc
    | some t => doc.addEdge { sourceId := s, targetId := t, pathPoints := none }

/-- erd.rs:52-136, see `addEntryMir`. -/
def addEntriesPg : List ModuleEntry → PgDocument → NodePaths → Except Fault PgDocument
  | [], doc, _ => .ok doc
  | .definition d :: es, doc, paths =>
    match addDefinitionPg d doc paths with
    | .error e => .error e
    | .ok (doc, paths) => addEntriesPg es doc paths
  | .relation r :: es, doc, paths =>
    match addRelationPg r doc paths with
    | .error e => .error e
    | .ok doc => addEntriesPg es doc paths

/-- erd.rs:42-139 `Module::into_mir` -/
def Module.intoMirPg (m : Module) : Except Fault PgDocument :=
  match PgDocument.new with
  | .error e => .error e
  | .ok doc => addEntriesPg m.entries doc []

/-! ## layout.rs -/

/-- layout.rs:59-62 `RouteGraph`; the weight of an edge is its `source_id`, `target_id` (layout.rs:206-210). -/
structure PgRouteGraph where
  graph : Pg.Graph RouteNodeData (RouteNodeId × RouteNodeId)
  terminalPorts : List (TerminalPortId × RouteNodeId)
  deriving DecidableEq, Repr

namespace PgRouteGraph

/-- The graph of the other models. -/
def plain (g : PgRouteGraph) : RouteGraph := ⟨g.graph.nodeWeights, g.graph.edgeWeights, g.terminalPorts⟩

/-- layout.rs:65-72 `RouteGraph::new` -/
def new : PgRouteGraph := ⟨Pg.Graph.new, []⟩

/-- layout.rs:82-84 `RouteGraph::get_node` -/
def getNode (g : PgRouteGraph) (id : RouteNodeId) : Option RouteNodeData := g.graph.nodeWeight id

/-- layout.rs:86-88 `RouteGraph::get_terminal_port` -/
def getTerminalPort (g : PgRouteGraph) (id : TerminalPortId) : Option RouteNodeId := g.terminalPorts.lookup id

/-- layout.rs:78-80 `RouteGraph::node_ids`, with the data of the nodes. -/
def indexed (g : PgRouteGraph) : List (RouteNodeId × RouteNodeData) :=
  (List.range g.graph.nodes.length).filterMap fun i => (g.graph.nodeWeight i).map fun w => (i, w)

/-- layout.rs:104-128 `RouteGraph::_add_node` -/
def addNodeAt (g : PgRouteGraph) (loc : Point) (o : Option Orientation) : Except Fault (PgRouteGraph × RouteNodeId) :=
  match g.indexed.find? (fun p => p.2.location = loc) with
  | some (i, node) => if node.orientation ≠ o then .error (.panic .orientationConflict) else .ok (g, i)
  | none =>
    match g.graph.addNode ⟨loc, o⟩ with
    | .error e => .error e
    | .ok (gr, i) => .ok (⟨gr, g.terminalPorts⟩, i)

/-- layout.rs:94-102 `RouteGraph::add_terminal_port` -/
def addTerminalPort (g : PgRouteGraph) (p : TerminalPort) : Except Fault (PgRouteGraph × RouteNodeId) :=
  match g.addNodeAt p.location (some p.orientation) with
  | .error e => .error e
  | .ok (g, i) => .ok ({ g with terminalPorts := (p.id, i) :: g.terminalPorts }, i)

/-- layout.rs:144-151 `RouteGraph::add_edge` -/
def addEdge (g : PgRouteGraph) (a b : RouteNodeId) : Except Fault PgRouteGraph :=
  if (g.graph.edgesOf a).any (·.target == b) then .ok g
  else
    match g.graph.addEdge a b (a, b) with
    | .error e => .error e
    | .ok (gr, _) => .ok ⟨gr, g.terminalPorts⟩

end PgRouteGraph

/-- layout.rs:482-484, see `addJunctions`. -/
def addJunctionsPg (g : PgRouteGraph) : List Point → Except Fault PgRouteGraph
  | [] => .ok g
  | j :: js =>
    match g.addNodeAt j none with
    | .error e => .error e
    | .ok (g, _) => addJunctionsPg g js

/-- layout.rs:487-497, see `addTerminalPorts`. -/
def addTerminalPortsPg (g : PgRouteGraph) : List TerminalPort → Except Fault PgRouteGraph
  | [] => .ok g
  | p :: ps =>
    match g.addTerminalPort p with
    | .error e => .error e
    | .ok (g, _) => addTerminalPortsPg g ps

/-- layout.rs:777-779. -/
def addEdgesPg (g : PgRouteGraph) : List (RouteNodeId × RouteNodeId) → Except Fault PgRouteGraph
  | [] => .ok g
  | (a, b) :: es =>
    match g.addEdge a b with
    | .error e => .error e
    | .ok g => addEdgesPg g es

/-- The computations with coordinates, which do not look at the storage: layout.rs:443-480 (the junctions), 694-770 (the neighbours of a
node among all nodes) and 836-842 (the cost of an edge).  They are given once exactly and once in single precision. -/
structure Coordinates where
  junctions : Document → List Point
  nearest : Document → List (RouteNodeId × RouteNodeData) → RouteNodeData → Nearest
  cost : RouteNodeData → RouteNodeData → Nat

/-- The exact computations of `Model/Layout`. -/
def Coordinates.exact : Coordinates where
  junctions doc := removeOverlapped doc (junctionsAroundShapes doc ++ crossingJunctions doc (junctionsAroundShapes doc))
  nearest doc ns n := ns.foldl (nearestStep (collisionRects doc) n) {}
  cost n m := n.location.distanceU32 m.location

/-- The rounded computations of `Model/F32Draw`. -/
def Coordinates.rounded (rnd sq : Rat → Rat) : Coordinates where
  junctions doc :=
    removeOverlappedR rnd doc (junctionsAroundShapesR rnd doc ++ crossingJunctionsR rnd doc (junctionsAroundShapesR rnd doc))
  nearest doc ns n := ns.foldl (nearestStepR rnd (collisionRectsR rnd doc) n) {}
  cost n m := n.location.distanceU32R rnd sq m.location

section
variable (co : Coordinates) (w : Nat → Nat)

/-- layout.rs:674-781 `connect_nearest_neighbor_edge_junctions` -/
def connectNearestPg (doc : Document) (g : PgRouteGraph) : Except Fault PgRouteGraph :=
  addEdgesPg g (g.indexed.flatMap fun p => (co.nearest doc g.indexed p.2).toEdges p.1)

/-- layout.rs:443-499, see `buildRouteGraph`. -/
def buildRouteGraphPg (doc : PgDocument) (g : PgRouteGraph) : Except Fault PgRouteGraph :=
  match addJunctionsPg g (co.junctions doc.plain) with
  | .error e => .error e
  | .ok g =>
    match addTerminalPortsPg g (doc.plain.edges.flatMap (edgePorts doc.plain)) with
    | .error e => .error e
    | .ok g => connectNearestPg co doc.plain g

/-- layout.rs:836-842.  (The ends of an edge are nodes: the `unwrap`s cannot fail.) -/
def edgeCostPg (g : PgRouteGraph) (e : EdgeRef) : Nat :=
  match g.getNode e.source, g.getNode e.target with
  | some n, some m => co.cost n m
  | _, _ => 0

/-- petgraph `astar`, `for edge in graph.edges(node)`, see `astarRelaxW`. -/
def astarRelaxPg (q : Queue) (cost : EdgeRef → Nat) (node nodeScore : Nat) : List EdgeRef → AstarState → AstarState
  | [], st => st
  | edge :: rest, st =>
    let next := edge.target
    let nextScore := w (nodeScore + cost edge)
    let improved := match st.scores.lookup next with
      | some old => decide (nextScore < old)
      | none => true
    if improved then
      astarRelaxPg q cost node nodeScore rest
        { st with
          scores := (next, nextScore) :: st.scores
          cameFrom := (next, node) :: st.cameFrom
          visitNext := q.push st.visitNext (w (nextScore + 0), next) }
    else astarRelaxPg q cost node nodeScore rest st

/-- petgraph `astar`, the outer loop, see `astarLoopW`. -/
def astarLoopPg (q : Queue) (g : PgRouteGraph) (cost : EdgeRef → Nat) (goal : RouteNodeId) : Nat → AstarState → AstarResult
  | 0, _ => .error .outOfFuel
  | fuel + 1, st =>
    match q.pop st.visitNext with
    | none => .ok none
    | some ((estimateScore, node), rest) =>
      let st := { st with visitNext := rest }
      match st.scores.lookup node with
      | none => .error .missingNode
      | some nodeScore =>
        if node = goal then .ok (some (nodeScore, (reconstruct st.cameFrom g.graph.nodes.length node).reverse))
        else
          let visit := match st.estimateScores.lookup node with
            | some old => !decide (old ≤ estimateScore)
            | none => true
          if visit then
            astarLoopPg q g cost goal fuel
              (astarRelaxPg w q cost node nodeScore (g.graph.edgesOf node)
                { st with estimateScores := (node, estimateScore) :: st.estimateScores })
          else astarLoopPg q g cost goal fuel st

/-- layout.rs:825-853 `compute_shortest_path` with petgraph's `astar` -/
def computeShortestPathPg (q : Queue) (g : PgRouteGraph) (start goal : RouteNodeId) : Except Panic (Nat × List RouteNodeId) :=
  match astarLoopPg w q g (edgeCostPg co g) goal (2 * g.graph.edges.length + 2)
      { visitNext := q.push [] (0, start), scores := [(start, 0)], estimateScores := [], cameFrom := [] } with
  | .error e => .error e
  | .ok none => .error .noRoute
  | .ok (some r) => .ok r

/-- layout.rs:799-813, see `bestPath`. -/
def bestPathPg (q : Queue) (g : PgRouteGraph) :
    List (TerminalPort × TerminalPort) → Nat → Option (List RouteNodeId) → Except Panic (Option (List RouteNodeId))
  | [], _, path => .ok path
  | (src, dst) :: rest, least, path =>
    match g.getTerminalPort src.id with
    | none => bestPathPg q g rest least path
    | some s =>
      match g.getTerminalPort dst.id with
      | none => bestPathPg q g rest least path
      | some t =>
        match computeShortestPathPg co w q g s t with
        | .error e => .error e
        | .ok (c, p) => if c < least then bestPathPg q g rest c (some p) else bestPathPg q g rest least path

/-- layout.rs:815-821, see `pathLocations`. -/
def pathLocationsPg (g : PgRouteGraph) : List RouteNodeId → Except Panic (List Point)
  | [] => .ok []
  | id :: ids =>
    match g.getNode id with
    | none => .error .missingNode
    | some n =>
      match pathLocationsPg g ids with
      | .error e => .error e
      | .ok ps => .ok (n.location :: ps)

/-- layout.rs:786-822 `find_shortest_edges_path` -/
def findShortestEdgesPathPg (q : Queue) (doc : PgDocument) (g : PgRouteGraph) (edgeId : Nat) : Except Panic (Option (List Point)) :=
  match doc.edgeEndpoints edgeId with
  | none => .ok none
  | some (s, t) =>
    match doc.graph.nodeWeight s, doc.graph.nodeWeight t with
    | some s, some t =>
      match bestPathPg co w q g (portPairs s t) ROUTE_COST_MAX none with
      | .error e => .error e
      | .ok none => .ok none
      | .ok (some path) =>
        match pathLocationsPg g path with
        | .error e => .error e
        | .ok ps => .ok (some ps)
    | _, _ => .ok none

/-- layout.rs:503-509, see `collectPaths`. -/
def collectPathsPg (q : Queue) (doc : PgDocument) (g : PgRouteGraph) : List Nat → Except Panic (List (List Point))
  | [] => .ok []
  | i :: is =>
    match findShortestEdgesPathPg co w q doc g i with
    | .error e => .error e
    | .ok r =>
      match collectPathsPg q doc g is with
      | .error e => .error e
      | .ok rest => .ok (match r with | some p => p :: rest | none => rest)

/-- layout.rs:401-514 `draw_edge_path` -/
def drawEdgePathPg (q : Queue) (doc : PgDocument) (g : PgRouteGraph) : Except Fault (PgDocument × PgRouteGraph) :=
  match buildRouteGraphPg co doc g with
  | .error e => .error e
  | .ok g =>
    match collectPathsPg co w q doc g doc.edgeIds with
    | .error e => .error (.panic e)
    | .ok paths =>
      match assignPaths doc.graph.edgeWeights paths with
      | .error e => .error (.panic e)
      | .ok edges => .ok (doc.setEdges edges, g)

end

/-- main.rs:107-131, see `drawModule`; `.inl` is a fault of the storage. -/
def drawModulePg (w : Nat → Nat) (q : Queue) (m : Module) : Except (Fault ⊕ RenderError) Element :=
  match m.intoMirPg with
  | .error f => .error (.inl f)
  | .ok doc =>
    let viewBox := (placeNodes doc.plain).2
    let doc := doc.updateNodes fun d => placeTerminalPorts (placeNodes d).1
    match drawEdgePathPg Coordinates.exact w q doc PgRouteGraph.new with
    | .error (.panic p) => .error (.inr (.panic p))
    | .error f => .error (.inl f)
    | .ok (doc, _) =>
      match render (some viewBox) doc.plain with
      | .error e => .error (.inr e)
      | .ok el => .ok el

/-- `drawModulePg` with every operation on `f32` rounded, see `drawModuleM`. -/
def drawModulePgM (rnd sq : Rat → Rat) (w : Nat → Nat) (q : Queue) (m : Module) : Except (Fault ⊕ RenderError) Element :=
  match m.intoMirPg with
  | .error f => .error (.inl f)
  | .ok doc =>
    let viewBox := (placeNodesR rnd doc.plain).2
    let doc := doc.updateNodes fun d => placeTerminalPortsR rnd (placeNodesR rnd d).1
    match drawEdgePathPg (Coordinates.rounded rnd sq) w q doc PgRouteGraph.new with
    | .error (.panic p) => .error (.inr (.panic p))
    | .error f => .error (.inl f)
    | .ok (doc, _) =>
      match renderR rnd (some viewBox) doc.plain with
      | .error e => .error (.inr e)
      | .ok el => .ok el

end Seiren
