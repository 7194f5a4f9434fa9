import Verif.Model.Steps
import Verif.Model.Storage
/-!
# How often the searches of `draw_edge_path` compare entries of the heap (`src/layout.rs:401-514`, petgraph `astar`, std `BinaryHeap`)

The operations of the heap of `Verif/Model/Storage.lean` once more, and the functions from the search up to `draw_edge_path`, with the number of
comparisons of two entries: one step is one call of `MinScored::cmp`.  Nothing else is counted here (the rounds of the loops of the program are counted in
`Verif/Model/Steps.lean`).  Each round of a loop of the heap makes exactly one comparison, except the last step of
`sift_down_to_bottom`, which makes none, so the number of entries moved is at most the number of comparisons and one more for each `pop`.

The results are those of the functions without counts (`C104_same`).
-/

namespace Seiren
open Steps

namespace HoleHeap

/-- std `BinaryHeap::sift_up(0, pos)`, the loop: `hole.element() <= hole.get(parent)` is one comparison. -/
def cSiftUp : Nat → Hole → Steps Hole
  | 0, h => done h
  | fuel + 1, h =>
    if h.pos > 0 then
      let parent := (h.pos - 1) / 2
      round (if h.elt.1 ≥ (h.get parent).1 then done h else cSiftUp fuel (h.moveTo parent))
    else done h

/-- std `BinaryHeap::sift_down_to_bottom(0)`, the loop and the last step: `hole.get(child) <= hole.get(child + 1)` is one comparison. -/
def cSiftToBottom (len : Nat) : Nat → Hole → Steps Hole
  | 0, h => done h
  | fuel + 1, h =>
    let child := 2 * h.pos + 1
    if child ≤ len - 2 then
      round (
        let child := child + if (h.get child).1 ≥ (h.get (child + 1)).1 then 1 else 0
        cSiftToBottom len fuel (h.moveTo child))
    else if child = len - 1 then done (h.moveTo child)
    else done h

/-- std `BinaryHeap::push`. -/
def cPush (h : List Entry) (e : Entry) : Steps (List Entry) :=
  let oldLen := h.length
  (cSiftUp oldLen (Hole.new (h ++ [e]) oldLen)).andThen fun hole => done hole.fill

/-- std `BinaryHeap::pop`. -/
def cPop (h : List Entry) : Steps (Option (Entry × List Entry)) :=
  match h.getLast? with
  | none => done none
  | some item =>
    match h.dropLast with
    | [] => done (some (item, []))
    | root :: tail =>
      let data := item :: tail
      (cSiftToBottom data.length data.length (Hole.new data 0)).andThen fun hole =>
        (cSiftUp hole.pos (Hole.new hole.fill hole.pos)).andThen fun hole => done (some (root, hole.fill))

end HoleHeap

/-- petgraph `astar`, the loop `for edge in graph.edges(node)`, see `astarRelax`. -/
def cAstarRelax (cost : RouteNodeId → RouteNodeId → Nat) (node nodeScore : Nat) : List RouteNodeId → AstarState → Steps AstarState
  | [], st => done st
  | next :: ns, st =>
    let nextScore := nodeScore + cost node next
    let improved := match st.scores.lookup next with
      | some old => decide (nextScore < old)
      | none => true
    if improved then
      (HoleHeap.cPush st.visitNext (nextScore, next)).andThen fun visitNext =>
        cAstarRelax cost node nodeScore ns
          { st with scores := (next, nextScore) :: st.scores, cameFrom := (next, node) :: st.cameFrom, visitNext := visitNext }
    else cAstarRelax cost node nodeScore ns st

/-- petgraph `astar`, the loop `while let Some(MinScored(estimate_score, node)) = visit_next.pop()`, see `astarLoop`. -/
def cAstarLoop (g : RouteGraph) (cost : RouteNodeId → RouteNodeId → Nat) (goal : RouteNodeId) : Nat → AstarState → Steps AstarResult
  | 0, _ => done (.error .outOfFuel)
  | fuel + 1, st =>
    (HoleHeap.cPop st.visitNext).andThen fun popped => match popped with
    | none => done (.ok none)
    | some ((estimateScore, node), rest) =>
      let st := { st with visitNext := rest }
      match st.scores.lookup node with
      | none => done (.error .missingNode)
      | some nodeScore =>
        if node = goal then done (.ok (some (nodeScore, (reconstruct st.cameFrom g.nodes.length node).reverse)))
        else
          let visit := match st.estimateScores.lookup node with
            | some old => !decide (old ≤ estimateScore)
            | none => true
          if visit then
            (cAstarRelax cost node nodeScore (g.neighbors node)
              { st with estimateScores := (node, estimateScore) :: st.estimateScores }).andThen fun st => cAstarLoop g cost goal fuel st
          else cAstarLoop g cost goal fuel st

/-- petgraph `algo::astar` with a zero estimate, see `astar`. -/
def cAstar (g : RouteGraph) (cost : RouteNodeId → RouteNodeId → Nat) (start goal : RouteNodeId) : Steps AstarResult :=
  (HoleHeap.cPush [] (0, start)).andThen fun visitNext =>
    cAstarLoop g cost goal (2 * g.edges.length + 2)
      { visitNext := visitNext, scores := [(start, 0)], estimateScores := [], cameFrom := [] }

/-- layout.rs:825-853 `compute_shortest_path`. -/
def cComputeShortestPath (g : RouteGraph) (start goal : RouteNodeId) : Steps (Except Panic (Nat × List RouteNodeId)) :=
  (cAstar g (edgeCost g) start goal).andThenE fun r => match r with
    | none => done (.error .noRoute)
    | some r => done (.ok r)

/-- layout.rs:799-813: the best `(cost, path)` over the port pairs. -/
def cBestPath (g : RouteGraph) :
    List (TerminalPort × TerminalPort) → Nat → Option (List RouteNodeId) → Steps (Except Panic (Option (List RouteNodeId)))
  | [], _, path => done (.ok path)
  | (src, dst) :: rest, cost, path =>
    match g.getTerminalPort src.id with
    | none => cBestPath g rest cost path
    | some s =>
      match g.getTerminalPort dst.id with
      | none => cBestPath g rest cost path
      | some t =>
        (cComputeShortestPath g s t).andThenE fun r =>
          if r.1 < cost then cBestPath g rest r.1 (some r.2) else cBestPath g rest cost path

/-- layout.rs:786-822 `find_shortest_edges_path`. -/
def cFindShortestEdgesPath (doc : Document) (g : RouteGraph) (e : EdgeData) : Steps (Except Panic (Option (List Point))) :=
  match doc.getNode e.sourceId, doc.getNode e.targetId with
  | some s, some t =>
    (cBestPath g (portPairs s t) ROUTE_COST_MAX none).andThenE fun r => match r with
      | none => done (.ok none)
      | some path => (done (pathLocations g path)).andThenE fun ps => done (.ok (some ps))
  | _, _ => done (.ok none)

/-- layout.rs:503-509: the queue of the paths that were found. -/
def cCollectPaths (doc : Document) (g : RouteGraph) : List EdgeData → Steps (Except Panic (List (List Point)))
  | [] => done (.ok [])
  | e :: es => (cFindShortestEdgesPath doc g e).andThenE fun r =>
      (cCollectPaths doc g es).andThenE fun rest => done (.ok (match r with | some p => p :: rest | none => rest))

/-- layout.rs:401-514 `draw_edge_path`. -/
def cDrawEdgePath (doc : Document) (g : RouteGraph) : Steps (Except Panic (Document × RouteGraph)) :=
  (done (buildRouteGraph doc g)).andThenE fun g =>
    (cCollectPaths doc g doc.edges).andThenE fun paths =>
      (done (assignPaths doc.edges paths)).andThenE fun edges => done (.ok ({ doc with edges := edges }, g))

end Seiren
