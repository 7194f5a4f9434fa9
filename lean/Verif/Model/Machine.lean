import Verif.Model.F32Draw
/-!
# Routing with 32-bit path costs

layout.rs:230-231: `RouteCost` is a `u32`, and its sums (derived `Add`) are sums of `u32`s.  `Model/Route` and
`Model/Layout` add costs as natural numbers.  Here the same functions are written with a function `w` applied to every sum:
`w n = n` if `n` fits into 32 bits, and anything at all otherwise (a release build wraps around, a debug build panics).
They take the construction of the graph and the cost of an edge as parameters, for the exact model and for the model in
single precision.
-/

namespace Seiren

section
variable (w : Nat → Nat)

/-- See `astarRelax`. -/
def astarRelaxW (q : Queue) (cost : RouteNodeId → RouteNodeId → Nat) (node nodeScore : Nat) :
    List RouteNodeId → AstarState → AstarState
  | [], st => st
  | next :: rest, st =>
    let nextScore := w (nodeScore + cost node next)
    let improved := match st.scores.lookup next with
      | some old => decide (nextScore < old)
      | none => true
    if improved then
      astarRelaxW q cost node nodeScore rest
        { st with
          scores := (next, nextScore) :: st.scores
          cameFrom := (next, node) :: st.cameFrom
          visitNext := q.push st.visitNext (w (nextScore + 0), next) }
    else astarRelaxW q cost node nodeScore rest st

/-- See `astarLoop`. -/
def astarLoopW (q : Queue) (g : RouteGraph) (cost : RouteNodeId → RouteNodeId → Nat) (goal : RouteNodeId) :
    Nat → AstarState → AstarResult
  | 0, _ => .error .outOfFuel
  | fuel + 1, st =>
    match q.pop st.visitNext with
    | none => .ok none
    | some ((estimateScore, node), rest) =>
      let st := { st with visitNext := rest }
      match st.scores.lookup node with
      | none => .error .missingNode
      | some nodeScore =>
        if node = goal then .ok (some (nodeScore, (reconstruct st.cameFrom g.nodes.length node).reverse))
        else
          let visit := match st.estimateScores.lookup node with
            | some old => !decide (old ≤ estimateScore)
            | none => true
          if visit then
            astarLoopW q g cost goal fuel
              (astarRelaxW w q cost node nodeScore (g.neighbors node)
                { st with estimateScores := (node, estimateScore) :: st.estimateScores })
          else astarLoopW q g cost goal fuel st

/-- See `astar`. -/
def astarW (q : Queue) (g : RouteGraph) (cost : RouteNodeId → RouteNodeId → Nat) (start goal : RouteNodeId) :
    AstarResult :=
  astarLoopW w q g cost goal (2 * g.edges.length + 2)
    { visitNext := q.push [] (0, start), scores := [(start, 0)], estimateScores := [], cameFrom := [] }

variable (build : Document → RouteGraph → Except Panic RouteGraph) (cost : RouteGraph → RouteNodeId → RouteNodeId → Nat)

/-- layout.rs:825-853, see `computeShortestPath`. -/
def computeShortestPathM (q : Queue) (g : RouteGraph) (start goal : RouteNodeId) :
    Except Panic (Nat × List RouteNodeId) :=
  match astarW w q g (cost g) start goal with
  | .error e => .error e
  | .ok none => .error .noRoute
  | .ok (some r) => .ok r

/-- layout.rs:799-813, see `bestPath`. -/
def bestPathM (q : Queue) (g : RouteGraph) :
    List (TerminalPort × TerminalPort) → Nat → Option (List RouteNodeId) → Except Panic (Option (List RouteNodeId))
  | [], _, path => .ok path
  | (src, dst) :: rest, least, path =>
    match g.getTerminalPort src.id with
    | none => bestPathM q g rest least path
    | some s =>
      match g.getTerminalPort dst.id with
      | none => bestPathM q g rest least path
      | some t =>
        match computeShortestPathM w cost q g s t with
        | .error e => .error e
        | .ok (c, p) => if c < least then bestPathM q g rest c (some p) else bestPathM q g rest least path

/-- layout.rs:786-822, see `findShortestEdgesPath`. -/
def findShortestEdgesPathM (q : Queue) (doc : Document) (g : RouteGraph) (e : EdgeData) :
    Except Panic (Option (List Point)) :=
  match doc.getNode e.sourceId, doc.getNode e.targetId with
  | some s, some t =>
    match bestPathM w cost q g (portPairs s t) ROUTE_COST_MAX none with
    | .error e => .error e
    | .ok none => .ok none
    | .ok (some path) =>
      match pathLocations g path with
      | .error e => .error e
      | .ok ps => .ok (some ps)
  | _, _ => .ok none

/-- layout.rs:503-509, see `collectPaths`. -/
def collectPathsM (q : Queue) (doc : Document) (g : RouteGraph) : List EdgeData → Except Panic (List (List Point))
  | [] => .ok []
  | e :: es =>
    match findShortestEdgesPathM w cost q doc g e with
    | .error e => .error e
    | .ok r =>
      match collectPathsM q doc g es with
      | .error e => .error e
      | .ok rest => .ok (match r with | some p => p :: rest | none => rest)

/-- layout.rs:401-514 `draw_edge_path`, see `drawEdgePath`. -/
def drawEdgePathM (q : Queue) (doc : Document) (g : RouteGraph) : Except Panic (Document × RouteGraph) :=
  match build doc g with
  | .error e => .error e
  | .ok g =>
    match collectPathsM w cost q doc g doc.edges with
    | .error e => .error e
    | .ok paths =>
      match assignPaths doc.edges paths with
      | .error e => .error e
      | .ok edges => .ok ({ doc with edges := edges }, g)

end

/-- main.rs:107-131, see `drawModule`: every floating point operation rounded by `rnd` and `sq`, every sum of path costs
passed through `w`. -/
def drawModuleM (rnd sq : Rat → Rat) (w : Nat → Nat) (q : Queue) (m : Module) : Except RenderError Element :=
  let (doc, viewBox) := placeNodesR rnd m.intoMir
  let doc := placeTerminalPortsR rnd doc
  match drawEdgePathM w (buildRouteGraphR rnd) (edgeCostR rnd sq) q doc RouteGraph.new with
  | .error p => .error (.panic p)
  | .ok (doc, _) => renderR rnd (some viewBox) doc

end Seiren
