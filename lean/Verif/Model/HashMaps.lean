import Verif.Model.HashTable
import Verif.Model.Whole
/-!
# The program with hash tables

What uses a `HashMap`, with std's hash table (`Model/HashTable`) in place of the association lists of `Model/Storage`: erd.rs (`node_paths`), layout.rs
(`terminal_ports`) and petgraph's `astar` (`scores`, `estimate_scores`, `came_from`), and the program composed of it.

Every `HashMap::new()` has keys of its own (`RandomState::new`).  So every map has a hash function of its own here, any function at all.  The maps of a
search belong to an edge and a pair of ports; there are no two searches for the same ones.
-/

namespace Seiren

open Pg (Fault EdgeRef)
open Hb (Table)

/-- The hash functions of the maps of one search. -/
structure SearchHashes where
  scores : RouteNodeId → Nat
  estimateScores : RouteNodeId → Nat
  cameFrom : RouteNodeId → Nat

/-- What the run of the program chose at random, and the width of a group (2 to the `group`). -/
structure Hashes where
  group : Nat
  nodePaths : EntityPath → Nat
  terminalPorts : TerminalPortId → Nat
  search : Nat → TerminalPortId → TerminalPortId → SearchHashes

/-- The width of a group. -/
def Hashes.width (hs : Hashes) : Nat := 2 ^ hs.group

section
variable (hs : Hashes)

/-! ## erd.rs -/

/-- erd.rs:78-115, see `addFieldsPg`. -/
def addFieldsHb (entity : Str) : List EntityField → PgDocument → Table EntityPath NodeId → Except Fault (PgDocument × Table EntityPath NodeId × List NodeId)
  | [], doc, paths => .ok (doc, paths, [])
  | f :: fs, doc, paths =>
    match doc.createField (fieldShape f) with
    | .error e => .error e
    | .ok (doc, id) =>
      match addFieldsHb entity fs doc (Hb.insert hs.nodePaths hs.width paths (.field entity f.name) id) with
      | .error e => .error e
      | .ok (doc, paths, ids) => .ok (doc, paths, id :: ids)

/-- erd.rs:54-128, see `addDefinitionPg`. -/
def addDefinitionHb (d : EntityDefinition) (doc : PgDocument) (paths : Table EntityPath NodeId) : Except Fault (PgDocument × Table EntityPath NodeId) :=
  match doc.createField (headerShape d) with
  | .error e => .error e
  | .ok (doc, headerId) =>
    match addFieldsHb hs d.name d.fields doc paths with
    | .error e => .error e
    | .ok (doc, paths, fieldIds) =>
      match doc.createRecord recordShape with
      | .error e => .error e
      | .ok (doc, recordId) =>
        let paths := Hb.insert hs.nodePaths hs.width paths (.entity d.name) recordId
        let doc := doc.modifyNode recordId fun n => fieldIds.foldl NodeData.appendChild (n.appendChild headerId)
        .ok (doc.modifyNode doc.bodyId (·.appendChild recordId), paths)

/-- erd.rs:129-134, see `addRelationPg`. -/
def addRelationHb (r : EntityRelation) (doc : PgDocument) (paths : Table EntityPath NodeId) : Except Fault PgDocument :=
  match Hb.get hs.nodePaths hs.width paths r.startPath with
  | none => .ok doc
  | some s =>
    match Hb.get hs.nodePaths hs.width paths r.endPath with
    | none => .ok doc
    | some t => doc.addEdge { sourceId := s, targetId := t, pathPoints := none }

/-- erd.rs:52-136, see `addEntriesPg`. -/
def addEntriesHb : List ModuleEntry → PgDocument → Table EntityPath NodeId → Except Fault PgDocument
  | [], doc, _ => .ok doc
  | .definition d :: es, doc, paths =>
    match addDefinitionHb hs d doc paths with
    | .error e => .error e
    | .ok (doc, paths) => addEntriesHb es doc paths
  | .relation r :: es, doc, paths =>
    match addRelationHb hs r doc paths with
    | .error e => .error e
    | .ok doc => addEntriesHb es doc paths

/-- erd.rs:42-139 `Module::into_mir` -/
def Module.intoMirHb (m : Module) : Except Fault PgDocument :=
  match PgDocument.new with
  | .error e => .error e
  | .ok doc => addEntriesHb hs m.entries doc Table.new

/-! ## layout.rs -/

/-- layout.rs:59-62 `RouteGraph` -/
structure HbRouteGraph where
  graph : Pg.Graph RouteNodeData (RouteNodeId × RouteNodeId)
  terminalPorts : Table TerminalPortId RouteNodeId

namespace HbRouteGraph

/-- The graph alone, for what does not look at the map. -/
def bare (g : HbRouteGraph) : PgRouteGraph := ⟨g.graph, []⟩

/-- layout.rs:65-72 `RouteGraph::new` -/
def new : HbRouteGraph := ⟨Pg.Graph.new, Table.new⟩

/-- layout.rs:86-88 `RouteGraph::get_terminal_port` -/
def getTerminalPort (g : HbRouteGraph) (id : TerminalPortId) : Option RouteNodeId := Hb.get hs.terminalPorts hs.width g.terminalPorts id

/-- layout.rs:94-102 `RouteGraph::add_terminal_port` -/
def addTerminalPort (g : HbRouteGraph) (p : TerminalPort) : Except Fault (HbRouteGraph × RouteNodeId) :=
  match g.bare.addNodeAt p.location (some p.orientation) with
  | .error e => .error e
  | .ok (b, i) => .ok (⟨b.graph, Hb.insert hs.terminalPorts hs.width g.terminalPorts p.id i⟩, i)

end HbRouteGraph

/-- layout.rs:487-497, see `addTerminalPortsPg`. -/
def addTerminalPortsHb (g : HbRouteGraph) : List TerminalPort → Except Fault HbRouteGraph
  | [] => .ok g
  | p :: ps =>
    match g.addTerminalPort hs p with
    | .error e => .error e
    | .ok (g, _) => addTerminalPortsHb g ps

variable (co : Coordinates) (w : Nat → Nat)

/-- layout.rs:443-499, see `buildRouteGraphPg`. -/
def buildRouteGraphHb (doc : PgDocument) (g : HbRouteGraph) : Except Fault HbRouteGraph :=
  match addJunctionsPg g.bare (co.junctions doc.plain) with
  | .error e => .error e
  | .ok b =>
    match addTerminalPortsHb hs ⟨b.graph, g.terminalPorts⟩ (doc.plain.edges.flatMap (edgePorts doc.plain)) with
    | .error e => .error e
    | .ok g =>
      match connectNearestPg co doc.plain g.bare with
      | .error e => .error e
      | .ok b => .ok ⟨b.graph, g.terminalPorts⟩

/-- State of petgraph's `astar` loop, see `AstarState`. -/
structure HbAstar where
  visitNext : List Entry
  scores : Table RouteNodeId Nat
  estimateScores : Table RouteNodeId Nat
  cameFrom : Table RouteNodeId Nat

/-- petgraph `astar`, `for edge in graph.edges(node)`, see `astarRelaxPg`. -/
def astarRelaxHb (W : Nat) (sh : SearchHashes) (q : Queue) (cost : EdgeRef → Nat) (node nodeScore : Nat) : List EdgeRef → HbAstar → HbAstar
  | [], st => st
  | edge :: rest, st =>
    let next := edge.target
    let nextScore := w (nodeScore + cost edge)
    let improved := match Hb.get sh.scores W st.scores next with
      | some old => decide (nextScore < old)
      | none => true
    if improved then
      astarRelaxHb W sh q cost node nodeScore rest
        { st with
          scores := Hb.insert sh.scores W st.scores next nextScore
          cameFrom := Hb.insert sh.cameFrom W st.cameFrom next node
          visitNext := q.push st.visitNext (w (nextScore + 0), next) }
    else astarRelaxHb W sh q cost node nodeScore rest st

/-- petgraph `PathTracker::reconstruct_path_to`, see `reconstruct`. -/
def reconstructHb (W : Nat) (sh : SearchHashes) (cameFrom : Table RouteNodeId Nat) : Nat → RouteNodeId → List RouteNodeId
  | 0, current => [current]
  | fuel + 1, current =>
    match Hb.get sh.cameFrom W cameFrom current with
    | none => [current]
    | some prev => current :: reconstructHb W sh cameFrom fuel prev

/-- petgraph `astar`, the outer loop, see `astarLoopPg`. -/
def astarLoopHb (W : Nat) (sh : SearchHashes) (q : Queue) (g : PgRouteGraph) (cost : EdgeRef → Nat) (goal : RouteNodeId) : Nat → HbAstar → AstarResult
  | 0, _ => .error .outOfFuel
  | fuel + 1, st =>
    match q.pop st.visitNext with
    | none => .ok none
    | some ((estimateScore, node), rest) =>
      let st := { st with visitNext := rest }
      match Hb.get sh.scores W st.scores node with
      | none => .error .missingNode
      | some nodeScore =>
        if node = goal then .ok (some (nodeScore, (reconstructHb W sh st.cameFrom g.graph.nodes.length node).reverse))
        else
          let visit := match Hb.get sh.estimateScores W st.estimateScores node with
            | some old => !decide (old ≤ estimateScore)
            | none => true
          if visit then
            astarLoopHb W sh q g cost goal fuel
              (astarRelaxHb w W sh q cost node nodeScore (g.graph.edgesOf node)
                { st with estimateScores := Hb.insert sh.estimateScores W st.estimateScores node estimateScore })
          else astarLoopHb W sh q g cost goal fuel st

/-- layout.rs:825-853 `compute_shortest_path` with petgraph's `astar` -/
def computeShortestPathHb (W : Nat) (sh : SearchHashes) (q : Queue) (g : PgRouteGraph) (start goal : RouteNodeId) :
    Except Panic (Nat × List RouteNodeId) :=
  match astarLoopHb w W sh q g (edgeCostPg co g) goal (2 * g.graph.edges.length + 2)
      { visitNext := q.push [] (0, start), scores := Hb.insert sh.scores W Table.new start 0, estimateScores := Table.new, cameFrom := Table.new } with
  | .error e => .error e
  | .ok none => .error .noRoute
  | .ok (some r) => .ok r

/-- layout.rs:799-813, see `bestPathPg`. -/
def bestPathHb (q : Queue) (edgeId : Nat) (g : HbRouteGraph) :
    List (TerminalPort × TerminalPort) → Nat → Option (List RouteNodeId) → Except Panic (Option (List RouteNodeId))
  | [], _, path => .ok path
  | (src, dst) :: rest, least, path =>
    match g.getTerminalPort hs src.id with
    | none => bestPathHb q edgeId g rest least path
    | some s =>
      match g.getTerminalPort hs dst.id with
      | none => bestPathHb q edgeId g rest least path
      | some t =>
        match computeShortestPathHb co w hs.width (hs.search edgeId src.id dst.id) q g.bare s t with
        | .error e => .error e
        | .ok (c, p) => if c < least then bestPathHb q edgeId g rest c (some p) else bestPathHb q edgeId g rest least path

/-- layout.rs:786-822 `find_shortest_edges_path` -/
def findShortestEdgesPathHb (q : Queue) (doc : PgDocument) (g : HbRouteGraph) (edgeId : Nat) : Except Panic (Option (List Point)) :=
  match doc.edgeEndpoints edgeId with
  | none => .ok none
  | some (s, t) =>
    match doc.graph.nodeWeight s, doc.graph.nodeWeight t with
    | some s, some t =>
      match bestPathHb hs co w q edgeId g (portPairs s t) ROUTE_COST_MAX none with
      | .error e => .error e
      | .ok none => .ok none
      | .ok (some path) =>
        match pathLocationsPg g.bare path with
        | .error e => .error e
        | .ok ps => .ok (some ps)
    | _, _ => .ok none

/-- layout.rs:503-509, see `collectPathsPg`. -/
def collectPathsHb (q : Queue) (doc : PgDocument) (g : HbRouteGraph) : List Nat → Except Panic (List (List Point))
  | [] => .ok []
  | i :: is =>
    match findShortestEdgesPathHb hs co w q doc g i with
    | .error e => .error e
    | .ok r =>
      match collectPathsHb q doc g is with
      | .error e => .error e
      | .ok rest => .ok (match r with | some p => p :: rest | none => rest)

/-- layout.rs:401-514 `draw_edge_path`; the document. -/
def drawEdgePathHb (q : Queue) (doc : PgDocument) (g : HbRouteGraph) : Except Fault PgDocument :=
  match buildRouteGraphHb hs co doc g with
  | .error e => .error e
  | .ok g =>
    match collectPathsHb hs co w q doc g doc.edgeIds with
    | .error e => .error (.panic e)
    | .ok paths =>
      match assignPaths doc.graph.edgeWeights paths with
      | .error e => .error (.panic e)
      | .ok edges => .ok (doc.setEdges edges)

end

/-- main.rs:107-131, see `drawModulePgM`. -/
def drawModuleHb (hs : Hashes) (rnd sq : Rat → Rat) (w : Nat → Nat) (q : Queue) (m : Module) : Except (Fault ⊕ RenderError) Element :=
  match m.intoMirHb hs with
  | .error f => .error (.inl f)
  | .ok doc =>
    let viewBox := (placeNodesR rnd doc.plain).2
    let doc := doc.updateNodes fun d => placeTerminalPortsR rnd (placeNodesR rnd d).1
    match drawEdgePathHb hs (Coordinates.rounded rnd sq) w q doc HbRouteGraph.new with
    | .error (.panic p) => .error (.inr (.panic p))
    | .error f => .error (.inl f)
    | .ok doc =>
      match renderR rnd (some viewBox) doc.plain with
      | .error e => .error (.inr e)
      | .ok el => .ok el

/-- main.rs:110-130, see `drawWhole`. -/
def drawWholeHb (hs : Hashes) (l : Libraries) (m : Module) : Option Str :=
  match drawModuleHb hs (roundOr l.overflow) sqrtF32 l.cost HoleHeap.queue m with
  | .error _ => none
  | .ok e => some (svgTextM l.escape e)

/-- main.rs:26-133, see `finishWhole`. -/
def finishWholeHb (hs : Hashes) (l : Libraries) (d : Devices) (filename : Str) : Option Str → Outcome
  | none => ⟨filename, [], [], .failure⟩
  | some src =>
    let (ast, errors) := parseWhole l src
    if d.reports < errors.length then ⟨filename, errors.take d.reports, [], .panic⟩
    else
      match ast with
      | none => ⟨filename, errors, [], .success⟩
      | some m =>
        match drawWholeHb hs l m with
        | none => ⟨filename, errors, [], .panic⟩
        | some text =>
          let (out, ok) := (BufWriter.mk [] ⟨d.room, []⟩).writeLines (encodeUtf8 text)
          ⟨filename, errors, out.atExit, if ok then .success else .panic⟩

/-- main.rs:10-134 `main`, see `runWhole`. -/
def runWholeHb (hs : Hashes) (l : Libraries) (w : RawWorld) (d : Devices) : Outcome :=
  if w.args.length ≥ 2 then
    match secondArg l.readsFirst w.args with
    | some path => finishWholeHb hs l d path (readToString (w.file path))
    | none => ⟨c!"(stdin)", [], [], .panic⟩
  else finishWholeHb hs l d c!"(stdin)" (readToString w.stdin)

end Seiren
