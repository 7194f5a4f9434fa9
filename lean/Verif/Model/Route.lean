import Mathlib.Data.Nat.Sqrt
import Verif.Model.Mir
/-!
# Model of the route graph (`src/layout.rs:53-235`) and of the shortest-path search (`layout.rs:824-853`)

The search itself is petgraph 0.6.2's `algo::astar`, called with a zero estimate.  petgraph's source is not in the
sandbox; `astar` below follows its published source (trusted base).  `BinaryHeap` is abstract here (`Queue`): the
theorems hold for every queue that satisfies `Queue.Lawful`, whatever the order among entries of equal score;
`Verif/Model/BinaryHeap.lean` models std's `BinaryHeap` and is proved lawful.
-/

namespace Seiren

/-- layout.rs:154-155 `RouteNodeId` (the index). -/
abbrev RouteNodeId := Nat

/-- layout.rs:173-179 `RouteNodeData`. -/
structure RouteNodeData where
  location : Point
  orientation : Option Orientation
  deriving DecidableEq, Repr

/-- layout.rs:198-203 `RouteNodeData::is_connectable`. -/
def RouteNodeData.isConnectable (n : RouteNodeData) (o : Orientation) : Bool :=
  match n.orientation with
  | none => true
  | some d => d == o

/-- layout.rs:59-62 `RouteGraph`.  `edges[i]` holds the endpoints of edge `i` (equal to the `source_id`,
`target_id` of its weight, layout.rs:147-148).  `terminalPorts` models the `HashMap`, newest binding first. -/
structure RouteGraph where
  nodes : List RouteNodeData
  edges : List (RouteNodeId × RouteNodeId)
  terminalPorts : List (TerminalPortId × RouteNodeId)
  deriving DecidableEq, Repr

namespace RouteGraph

/-- layout.rs:65-72 `RouteGraph::new`. -/
def new : RouteGraph := ⟨[], [], []⟩

/-- layout.rs:82-84 `RouteGraph::get_node`. -/
def getNode (g : RouteGraph) (id : RouteNodeId) : Option RouteNodeData := g.nodes[id]?

/-- layout.rs:78-80 `RouteGraph::node_ids`. -/
def nodeIds (g : RouteGraph) : List RouteNodeId := List.range g.nodes.length

/-- layout.rs:86-88 `RouteGraph::get_terminal_port`. -/
def getTerminalPort (g : RouteGraph) (id : TerminalPortId) : Option RouteNodeId := g.terminalPorts.lookup id

/-- layout.rs:104-128 `RouteGraph::_add_node`. -/
def addNodeAt (g : RouteGraph) (loc : Point) (o : Option Orientation) : Except Panic (RouteGraph × RouteNodeId) :=
  match g.nodes.zipIdx.find? (fun p => p.1.location = loc) with
  | some (node, i) =>
    if node.orientation ≠ o then .error .orientationConflict else .ok (g, i)
  | none => .ok ({ g with nodes := g.nodes ++ [⟨loc, o⟩] }, g.nodes.length)

/-- layout.rs:90-92 `RouteGraph::add_node`. -/
def addNode (g : RouteGraph) (loc : Point) : Except Panic (RouteGraph × RouteNodeId) := g.addNodeAt loc none

/-- layout.rs:94-102 `RouteGraph::add_terminal_port`. -/
def addTerminalPort (g : RouteGraph) (p : TerminalPort) : Except Panic (RouteGraph × RouteNodeId) :=
  match g.addNodeAt p.location (some p.orientation) with
  | .error e => .error e
  | .ok (g, i) => .ok ({ g with terminalPorts := (p.id, i) :: g.terminalPorts }, i)

/-- petgraph `Graph::edges(a)` on an undirected graph, as the list of the other endpoints: first the edges added
with `a` as source, newest first, then those added with `a` as target (without self loops), newest first. -/
def neighbors (g : RouteGraph) (a : RouteNodeId) : List RouteNodeId :=
  (g.edges.reverse.filterMap fun e => if e.1 = a then some e.2 else none) ++
  (g.edges.reverse.filterMap fun e => if e.2 = a ∧ e.1 ≠ a then some e.1 else none)

/-- layout.rs:144-151 `RouteGraph::add_edge`. -/
def addEdge (g : RouteGraph) (a b : RouteNodeId) : RouteGraph :=
  if (g.neighbors a).any (· == b) then g else { g with edges := g.edges ++ [(a, b)] }

end RouteGraph

/-! ## A* -/

/-- An entry `MinScored(score, node)` of the priority queue. -/
abbrev Entry := Nat × RouteNodeId

/-- A priority queue whose content is a list of entries. -/
structure Queue where
  push : List Entry → Entry → List Entry
  pop : List Entry → Option (Entry × List Entry)

/-- What the search relies on: nothing is lost or invented, and `pop` returns an entry of least score. -/
structure Queue.Lawful (q : Queue) (Inv : List Entry → Prop) : Prop where
  inv_nil : Inv []
  inv_push : ∀ h e, Inv h → Inv (q.push h e)
  inv_pop : ∀ h e h', Inv h → q.pop h = some (e, h') → Inv h'
  push_perm : ∀ h e, Inv h → (q.push h e).Perm (e :: h)
  pop_nil : q.pop [] = none
  pop_some : ∀ h, Inv h → h ≠ [] → ∃ e h', q.pop h = some (e, h')
  pop_perm : ∀ h e h', Inv h → q.pop h = some (e, h') → h.Perm (e :: h')
  pop_min : ∀ h e h', Inv h → q.pop h = some (e, h') → ∀ x ∈ h, e.1 ≤ x.1

/-- `HashMap<NodeId, V>` of the search as an association list, newest binding first. -/
abbrev NodeMap := List (RouteNodeId × Nat)

/-- State of petgraph's `astar` loop. -/
structure AstarState where
  /-- `visit_next: BinaryHeap<MinScored<K, NodeId>>` -/
  visitNext : List Entry
  /-- `scores`: g-values -/
  scores : NodeMap
  /-- `estimate_scores`: f-values of the nodes already expanded -/
  estimateScores : NodeMap
  /-- `path_tracker.came_from` -/
  cameFrom : NodeMap

/-- petgraph `astar`, the loop `for edge in graph.edges(node)` over the remaining neighbours. -/
def astarRelax (q : Queue) (cost : RouteNodeId → RouteNodeId → Nat) (node nodeScore : Nat) :
    List RouteNodeId → AstarState → AstarState
  | [], st => st
  | next :: rest, st =>
    let nextScore := nodeScore + cost node next
    let improved := match st.scores.lookup next with
      | some old => decide (nextScore < old)
      | none => true
    if improved then
      astarRelax q cost node nodeScore rest
        { st with
          scores := (next, nextScore) :: st.scores
          cameFrom := (next, node) :: st.cameFrom
          visitNext := q.push st.visitNext (nextScore, next) }
    else astarRelax q cost node nodeScore rest st

/-- petgraph `PathTracker::reconstruct_path_to`, before the final `reverse`; the fuel bounds the length of the
chain of predecessors. -/
def reconstruct (cameFrom : NodeMap) : Nat → RouteNodeId → List RouteNodeId
  | 0, current => [current]
  | fuel + 1, current =>
    match cameFrom.lookup current with
    | none => [current]
    | some prev => current :: reconstruct cameFrom fuel prev

/-- Result of the search: `none` is "no path". -/
abbrev AstarResult := Except Panic (Option (Nat × List RouteNodeId))

/-- petgraph `astar`, the loop `while let Some(MinScored(estimate_score, node)) = visit_next.pop()`. The estimate
is 0 (layout.rs:843), so an entry's score is the g-value it was pushed with. -/
def astarLoop (q : Queue) (g : RouteGraph) (cost : RouteNodeId → RouteNodeId → Nat) (goal : RouteNodeId) :
    Nat → AstarState → AstarResult
  | 0, _ => .error .outOfFuel
  | fuel + 1, st =>
    match q.pop st.visitNext with
    | none => .ok none
    | some ((estimateScore, node), rest) =>
      let st := { st with visitNext := rest }
      match st.scores.lookup node with
      | none => .error .missingNode -- `scores[&node]` panics if absent
      | some nodeScore =>
        if node = goal then .ok (some (nodeScore, (reconstruct st.cameFrom g.nodes.length node).reverse))
        else
          let visit := match st.estimateScores.lookup node with
            | some old => !decide (old ≤ estimateScore)
            | none => true
          if visit then
            astarLoop q g cost goal fuel
              (astarRelax q cost node nodeScore (g.neighbors node)
                { st with estimateScores := (node, estimateScore) :: st.estimateScores })
          else astarLoop q g cost goal fuel st

/-- petgraph `algo::astar` with a zero estimate.  The number of entries ever pushed is bounded by one plus twice
the number of edges, which is the fuel. -/
def astar (q : Queue) (g : RouteGraph) (cost : RouteNodeId → RouteNodeId → Nat) (start goal : RouteNodeId) :
    AstarResult :=
  astarLoop q g cost goal (2 * g.edges.length + 2)
    { visitNext := q.push [] (0, start), scores := [(start, 0)], estimateScores := [], cameFrom := [] }

/-- layout.rs:836-842: the cost of an edge, `RouteCost(distance as u32)`.  (The `unwrap`s of lines 837-838 cannot
fail: the ids are endpoints of an edge of the graph.  The `u32` sum is not bounded in the model.) -/
def edgeCost (g : RouteGraph) (a b : RouteNodeId) : Nat :=
  match g.getNode a, g.getNode b with
  | some n, some m => n.location.distanceU32 m.location
  | _, _ => 0

/-- layout.rs:825-853 `compute_shortest_path`; a missing path is the panic of line 846. -/
def computeShortestPath (q : Queue) (g : RouteGraph) (start goal : RouteNodeId) :
    Except Panic (Nat × List RouteNodeId) :=
  match astar q g (edgeCost g) start goal with
  | .error e => .error e
  | .ok none => .error .noRoute
  | .ok (some r) => .ok r

end Seiren
