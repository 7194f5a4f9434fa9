import Verif.Model.Layout
/-!
# How many steps `draw_edge_path` takes (`src/layout.rs:401-514`)

The functions of `Verif/Model/Layout.lean` and `Verif/Model/Route.lean` once more, with the number of their steps.  One step is one round of a
loop: of a `for` or `while`, or of an iterator (`find`, `any`, `filter_map`, `map` with `collect`).  `find` and `any` stop at the first hit, and
`no_collision` (layout.rs:704) is called only where the conditions before it hold.  What is not counted: what is done once for each round (comparing numbers,
the operations of hash maps and of the heap, `Vec::push`) and the copying of vectors (`extend`, `reverse`).

The results are those of the functions without counts (`C100_same`).
-/

namespace Seiren

/-- A result and the number of steps it has taken. -/
structure Steps (α : Type) where
  val : α
  steps : Nat

namespace Steps
variable {α β σ ε : Type}

/-- No steps. -/
def done (a : α) : Steps α := ⟨a, 0⟩

/-- One round of a loop. -/
def round (x : Steps α) : Steps α := ⟨x.val, x.steps + 1⟩

/-- One computation and then another. -/
def andThen (x : Steps α) (f : α → Steps β) : Steps β := ⟨(f x.val).val, x.steps + (f x.val).steps⟩

/-- One computation and, unless it fails, another. -/
def andThenE (x : Steps (Except ε α)) (f : α → Steps (Except ε β)) : Steps (Except ε β) :=
  match x.val with
  | .error e => ⟨.error e, x.steps⟩
  | .ok a => ⟨(f a).val, x.steps + (f a).steps⟩

/-- `iter().any(f)`. -/
def any (f : α → Bool) : List α → Steps Bool
  | [] => done false
  | x :: xs => round (if f x then done true else any f xs)

/-- `iter().find(f)`. -/
def find (f : α → Bool) : List α → Steps (Option α)
  | [] => done none
  | x :: xs => round (if f x then done (some x) else find f xs)

/-- `for x in xs { s = f(s, x) }`. -/
def loop (f : σ → α → Steps σ) : σ → List α → Steps σ
  | s, [] => done s
  | s, x :: xs => round ((f s x).andThen fun s => loop f s xs)

/-- The same with a body that may panic. -/
def loopE (f : σ → α → Steps (Except Panic σ)) : σ → List α → Steps (Except Panic σ)
  | s, [] => done (.ok s)
  | s, x :: xs => round ((f s x).andThenE fun s => loopE f s xs)

/-- `for x in xs { result.extend(f(x)) }`. -/
def concat (f : α → Steps (List β)) : List α → Steps (List β)
  | [] => done []
  | x :: xs => round ((f x).andThen fun ys => (concat f xs).andThen fun zs => done (ys ++ zs))

/-- `iter().filter_map(f).collect()`, or a loop that pushes at most one element in each round. -/
def select (f : α → Option β) (xs : List α) : Steps (List β) := concat (fun x => done (f x).toList) xs

end Steps
open Steps

/-! ## The junctions -/

/-- layout.rs:557-562, 646-657, 678-691: the rectangles of the shapes, changed by `inset`. -/
def sShapeRects (doc : Document) (inset : Rect → Rect) : Steps (List Rect) :=
  select (fun id => ((doc.getNode id).bind NodeData.rect).map inset) doc.bodyChildren

/-- layout.rs:523-542 `edge_junction_nodes_around_shapes`. -/
def sJunctionsAroundShapes (doc : Document) : Steps (List Point) :=
  concat (fun id => done (match (doc.getNode id).bind NodeData.rect with
    | none => []
    | some r =>
      let j := r.insetBy (-SHAPE_JUNCTION_MARGIN) (-SHAPE_JUNCTION_MARGIN)
      [j.origin, ⟨j.maxX, j.minY⟩, ⟨j.maxX, j.maxY⟩, ⟨j.minX, j.maxY⟩])) doc.bodyChildren

/-- layout.rs:547-635 `edge_junction_nodes_from_terminal_port`. -/
def sJunctionsFromTerminalPort (doc : Document) (port : TerminalPort) (others : List Point) : Steps (List Point) :=
  (sShapeRects doc fun r => r.insetBy (-SHAPE_JUNCTION_MARGIN) (-SHAPE_JUNCTION_MARGIN)).andThen fun rects =>
    let c := port.location
    match port.orientation with
    | .left =>
      let lineEnd : Point := ⟨f32Min, c.y⟩
      (loop (fun minX r => done (if r.maxX < c.x ∧ r.intersectsLine c lineEnd then max minX r.maxX else minX)) (0 : Rat) rects).andThen fun minX =>
        select (fun j => if j.x ≤ c.x ∧ j.x ≥ minX then some ⟨j.x, c.y⟩ else none) others
    | .right =>
      let lineEnd : Point := ⟨f32Max, c.y⟩
      (loop (fun maxX r => done (if r.minX > c.x ∧ r.intersectsLine c lineEnd then min maxX r.minX else maxX)) f32Max rects).andThen fun maxX =>
        select (fun j => if j.x ≥ c.x ∧ j.x ≤ maxX then some ⟨j.x, c.y⟩ else none) others
    | .up =>
      let lineEnd : Point := ⟨c.x, f32Max⟩
      (loop (fun maxY r => done (if r.minY > c.y ∧ r.intersectsLine c lineEnd then min maxY r.minY else maxY)) f32Max rects).andThen fun maxY =>
        select (fun j => if j.y ≤ c.y ∧ j.y ≤ maxY then some ⟨c.x, j.y⟩ else none) others
    | .down =>
      let lineEnd : Point := ⟨c.x, f32Min⟩
      (loop (fun minY r => done (if r.maxY < c.y ∧ r.intersectsLine c lineEnd then max minY r.maxY else minY)) (0 : Rat) rects).andThen fun minY =>
        select (fun j => if j.y ≥ c.y ∧ j.y ≥ minY then some ⟨c.x, j.y⟩ else none) others

/-- layout.rs:448-474: the crossing junctions of all edges. -/
def sCrossingJunctions (doc : Document) (shapeJunctions : List Point) : Steps (List Point) :=
  concat (fun e => concat (fun pt => sJunctionsFromTerminalPort doc pt shapeJunctions) (edgePorts doc e)) doc.edges

/-- layout.rs:637-671 `remove_overlapped_junction_nodes`. -/
def sRemoveOverlapped (doc : Document) (junctions : List Point) : Steps (List Point) :=
  (sShapeRects doc fun r => r.insetBy (-(SHAPE_JUNCTION_MARGIN - 1)) (-(SHAPE_JUNCTION_MARGIN - 1))).andThen fun rects =>
    concat (fun j => (Steps.any (·.containsPoint j) rects).andThen fun inside => done (if inside then [] else [j])) junctions

/-! ## The graph -/

namespace RouteGraph

/-- layout.rs:104-128 `RouteGraph::_add_node`. -/
def sAddNodeAt (g : RouteGraph) (loc : Point) (o : Option Orientation) : Steps (Except Panic (RouteGraph × RouteNodeId)) :=
  (find (fun p => p.1.location = loc) g.nodes.zipIdx).andThen fun found => done (match found with
    | some (node, i) => if node.orientation ≠ o then .error .orientationConflict else .ok (g, i)
    | none => .ok ({ g with nodes := g.nodes ++ [⟨loc, o⟩] }, g.nodes.length))

/-- layout.rs:94-102 `RouteGraph::add_terminal_port`. -/
def sAddTerminalPort (g : RouteGraph) (p : TerminalPort) : Steps (Except Panic (RouteGraph × RouteNodeId)) :=
  (g.sAddNodeAt p.location (some p.orientation)).andThenE fun (g, i) =>
    done (.ok ({ g with terminalPorts := (p.id, i) :: g.terminalPorts }, i))

/-- layout.rs:144-151 `RouteGraph::add_edge`. -/
def sAddEdge (g : RouteGraph) (a b : RouteNodeId) : Steps RouteGraph :=
  round ((Steps.any (· == b) (g.neighbors a)).andThen fun found => done (if found then g else { g with edges := g.edges ++ [(a, b)] }))

end RouteGraph

/-- layout.rs:482-484: add the junctions to the graph. -/
def sAddJunctions (g : RouteGraph) (js : List Point) : Steps (Except Panic RouteGraph) :=
  loopE (fun g j => (g.sAddNodeAt j none).andThenE fun (g, _) => done (.ok g)) g js

/-- layout.rs:490-496: add the terminal ports of one edge to the graph. -/
def sAddPorts (g : RouteGraph) (ps : List TerminalPort) : Steps (Except Panic RouteGraph) :=
  loopE (fun g p => (g.sAddTerminalPort p).andThenE fun (g, _) => done (.ok g)) g ps

/-- layout.rs:487-497: add the terminal ports to the graph. -/
def sAddTerminalPorts (doc : Document) (g : RouteGraph) : Steps (Except Panic RouteGraph) :=
  loopE (fun g e => sAddPorts g (edgePorts doc e)) g doc.edges

/-- layout.rs:719 (and 736, 750, 764): `cur.is_none() || nearer(cur) && no_collision()`. -/
def sTakeCandidate (cur : Option (RouteNodeId × RouteNodeData)) (nearer : RouteNodeData → Bool) (noCollision : Steps Bool)
    (cand : RouteNodeId × RouteNodeData) : Steps (Option (RouteNodeId × RouteNodeData)) :=
  match cur with
  | none => done (some cand)
  | some c => if nearer c.2 then noCollision.andThen fun free => done (if free then some cand else some c) else done (some c)

/-- layout.rs:699-770: consider node `b` (data `m`) as a neighbour of the node with data `n`. -/
def sNearestStep (rects : List Rect) (n : RouteNodeData) (acc : Nearest) (b : RouteNodeId × RouteNodeData) : Steps Nearest :=
  let m := b.2
  let p := n.location
  let q := m.location
  let noCollision : Steps Bool := (Steps.any (·.intersectsLine p q) rects).andThen fun hit => done (!hit)
  if q.x = p.x ∧ q.y < p.y then
    if n.isConnectable .up && m.isConnectable .down then
      (sTakeCandidate acc.up (fun c => decide (c.location.y < q.y)) noCollision b).andThen fun up => done { acc with up := up }
    else done acc
  else if q.x = p.x ∧ q.y > p.y then
    if n.isConnectable .down && m.isConnectable .up then
      (sTakeCandidate acc.down (fun c => decide (c.location.y > q.y)) noCollision b).andThen fun down => done { acc with down := down }
    else done acc
  else if q.y = p.y ∧ q.x < p.x then
    if n.isConnectable .left && m.isConnectable .right then
      (sTakeCandidate acc.left (fun c => decide (c.location.x < q.x)) noCollision b).andThen fun left => done { acc with left := left }
    else done acc
  else if q.y = p.y ∧ q.x > p.x then
    if n.isConnectable .right && m.isConnectable .left then
      (sTakeCandidate acc.right (fun c => decide (c.location.x > q.x)) noCollision b).andThen fun right => done { acc with right := right }
    else done acc
  else done acc

/-- layout.rs:693-776: the edges of one node. -/
def sNearestEdges (rects : List Rect) (g : RouteGraph) (a : RouteNodeId × RouteNodeData) : Steps (List (RouteNodeId × RouteNodeId)) :=
  (loop (sNearestStep rects a.2) {} g.indexed).andThen fun s =>
    select (fun d => d.map fun d => (a.1, d.1)) [s.left, s.right, s.up, s.down]

/-- layout.rs:674-781 `connect_nearest_neighbor_edge_junctions`. -/
def sConnectNearest (doc : Document) (g : RouteGraph) : Steps RouteGraph :=
  (sShapeRects doc fun r => r.insetBy 1 1).andThen fun rects =>
    (concat (sNearestEdges rects g) g.indexed).andThen fun edges =>
      loop (fun g e => g.sAddEdge e.1 e.2) g edges

/-! ## The search -/

/-- petgraph `astar`, the loop `for edge in graph.edges(node)`. -/
def sAstarRelax (q : Queue) (cost : RouteNodeId → RouteNodeId → Nat) (node nodeScore : Nat) (ns : List RouteNodeId) (st : AstarState) :
    Steps AstarState :=
  loop (fun st next =>
    let nextScore := nodeScore + cost node next
    let improved := match st.scores.lookup next with
      | some old => decide (nextScore < old)
      | none => true
    done (if improved then
      { st with
        scores := (next, nextScore) :: st.scores
        cameFrom := (next, node) :: st.cameFrom
        visitNext := q.push st.visitNext (nextScore, next) }
    else st)) st ns

/-- petgraph `PathTracker::reconstruct_path_to`, one step for each predecessor. -/
def sReconstruct (cameFrom : NodeMap) : Nat → RouteNodeId → Steps (List RouteNodeId)
  | 0, current => done [current]
  | fuel + 1, current =>
    match cameFrom.lookup current with
    | none => done [current]
    | some prev => round ((sReconstruct cameFrom fuel prev).andThen fun rest => done (current :: rest))

/-- petgraph `astar`, the loop `while let Some(MinScored(estimate_score, node)) = visit_next.pop()`. -/
def sAstarLoop (q : Queue) (g : RouteGraph) (cost : RouteNodeId → RouteNodeId → Nat) (goal : RouteNodeId) :
    Nat → AstarState → Steps AstarResult
  | 0, _ => done (.error .outOfFuel)
  | fuel + 1, st =>
    match q.pop st.visitNext with
    | none => done (.ok none)
    | some ((estimateScore, node), rest) =>
      let st := { st with visitNext := rest }
      round (match st.scores.lookup node with
      | none => done (.error .missingNode)
      | some nodeScore =>
        if node = goal then
          (sReconstruct st.cameFrom g.nodes.length node).andThen fun path => done (.ok (some (nodeScore, path.reverse)))
        else
          let visit := match st.estimateScores.lookup node with
            | some old => !decide (old ≤ estimateScore)
            | none => true
          if visit then
            (sAstarRelax q cost node nodeScore (g.neighbors node)
              { st with estimateScores := (node, estimateScore) :: st.estimateScores }).andThen fun st =>
                sAstarLoop q g cost goal fuel st
          else sAstarLoop q g cost goal fuel st)

/-- petgraph `algo::astar` with a zero estimate. -/
def sAstar (q : Queue) (g : RouteGraph) (cost : RouteNodeId → RouteNodeId → Nat) (start goal : RouteNodeId) : Steps AstarResult :=
  sAstarLoop q g cost goal (2 * g.edges.length + 2)
    { visitNext := q.push [] (0, start), scores := [(start, 0)], estimateScores := [], cameFrom := [] }

/-- layout.rs:825-853 `compute_shortest_path`; line 852 goes through the path once more. -/
def sComputeShortestPath (q : Queue) (g : RouteGraph) (start goal : RouteNodeId) : Steps (Except Panic (Nat × List RouteNodeId)) :=
  (sAstar q g (edgeCost g) start goal).andThenE fun r => match r with
    | none => done (.error .noRoute)
    | some r => (select some r.2).andThen fun path => done (.ok (r.1, path))

/-- layout.rs:799-813: the best `(cost, path)` over the port pairs. -/
def sBestPath (q : Queue) (g : RouteGraph) :
    List (TerminalPort × TerminalPort) → Nat → Option (List RouteNodeId) → Steps (Except Panic (Option (List RouteNodeId)))
  | [], _, path => done (.ok path)
  | (src, dst) :: rest, cost, path => round (
    match g.getTerminalPort src.id with
    | none => sBestPath q g rest cost path
    | some s =>
      match g.getTerminalPort dst.id with
      | none => sBestPath q g rest cost path
      | some t =>
        (sComputeShortestPath q g s t).andThenE fun r =>
          if r.1 < cost then sBestPath q g rest r.1 (some r.2) else sBestPath q g rest cost path)

/-- layout.rs:815-821: the locations of the nodes of a path. -/
def sPathLocations (g : RouteGraph) : List RouteNodeId → Steps (Except Panic (List Point))
  | [] => done (.ok [])
  | id :: ids => round (
    match g.getNode id with
    | none => done (.error .missingNode)
    | some n => (sPathLocations g ids).andThenE fun ps => done (.ok (n.location :: ps)))

/-- layout.rs:786-822 `find_shortest_edges_path`.  `sBestPath` counts the rounds of the inner loop of lines 802-803; the outer one has a round for
each terminal port of the start. -/
def sFindShortestEdgesPath (q : Queue) (doc : Document) (g : RouteGraph) (e : EdgeData) : Steps (Except Panic (Option (List Point))) :=
  match doc.getNode e.sourceId, doc.getNode e.targetId with
  | some s, some t =>
    (⟨s.terminalPorts, s.terminalPorts.length⟩ : Steps (List TerminalPort)).andThen fun _ =>
      (sBestPath q g (portPairs s t) ROUTE_COST_MAX none).andThenE fun r => match r with
        | none => done (.ok none)
        | some path => (sPathLocations g path).andThenE fun ps => done (.ok (some ps))
  | _, _ => done (.ok none)

/-- layout.rs:503-509: the queue of the paths that were found. -/
def sCollectPaths (q : Queue) (doc : Document) (g : RouteGraph) : List EdgeData → Steps (Except Panic (List (List Point)))
  | [] => done (.ok [])
  | e :: es => round ((sFindShortestEdgesPath q doc g e).andThenE fun r =>
      (sCollectPaths q doc g es).andThenE fun rest => done (.ok (match r with | some p => p :: rest | none => rest)))

/-- layout.rs:511-513: hand the paths to the edges. -/
def sAssignPaths : List EdgeData → List (List Point) → Steps (Except Panic (List EdgeData))
  | [], _ => done (.ok [])
  | _ :: _, [] => round (done (.error .missingPath))
  | e :: es, p :: ps => round ((sAssignPaths es ps).andThenE fun es' => done (.ok ({ e with pathPoints := some p } :: es')))

/-! ## All of it -/

/-- layout.rs:443-499: the route graph of a document. -/
def sBuildRouteGraph (doc : Document) (g : RouteGraph) : Steps (Except Panic RouteGraph) :=
  (sJunctionsAroundShapes doc).andThen fun shapeJunctions =>
    (sCrossingJunctions doc shapeJunctions).andThen fun crossing =>
      (sRemoveOverlapped doc (shapeJunctions ++ crossing)).andThen fun junctions =>
        (sAddJunctions g junctions).andThenE fun g =>
          (sAddTerminalPorts doc g).andThenE fun g =>
            (sConnectNearest doc g).andThen fun g => done (.ok g)

/-- layout.rs:401-514 `draw_edge_path`. -/
def sDrawEdgePath (q : Queue) (doc : Document) (g : RouteGraph) : Steps (Except Panic (Document × RouteGraph)) :=
  (sBuildRouteGraph doc g).andThenE fun g =>
    (sCollectPaths q doc g doc.edges).andThenE fun paths =>
      (sAssignPaths doc.edges paths).andThenE fun edges => done (.ok ({ doc with edges := edges }, g))

end Seiren
