import Verif.Model.F32
import Verif.Model.Main
/-!
# Routing and rendering in single precision

As in `Verif/Model/F32.lean`: the functions of the model once more, with the rounding function `rnd` applied to the
result of every floating-point addition, subtraction, multiplication and division, and `sq` for `f32::sqrt`.  Negation,
`min`, `max` and comparisons are exact in floating point.  The code as it runs is the instance `rnd := roundF32`,
`sq := sqrtF32`.

Trusted: `powi(2)` is `x * x` (layout uses it in `Point::distance` only); `sqrt` is correctly rounded (IEEE 754).
-/

namespace Seiren

/-- Is `q` below the middle between the naturals `n` and `n + 1`, in squares? -/
def belowMiddle (q : Rat) (n : Nat) : Bool :=
  if q < ((n : Rat) + 1 / 2) ^ 2 then true
  else if ((n : Rat) + 1 / 2) ^ 2 < q then false
  else n % 2 = 0

/-- `f32::sqrt`: the number of the format nearest to the square root, ties to even.  `2^u` is the unit in the last
place of the square root; `s` is the square of the root in these units. -/
def sqrtF32 (q : Rat) : Rat :=
  if q ≤ 0 then 0
  else
    let u := Int.log 2 q / 2 - 23
    let s := q / 2 ^ (2 * u)
    let n := Nat.sqrt s.floor.toNat
    (if belowMiddle s n then (n : Rat) else (n : Rat) + 1) * 2 ^ u

section
variable (rnd : Rat → Rat)

/-- geometry.rs:172-180 `inset_by`, see `Rect.insetBy`. -/
def Rect.insetByR (r : Rect) (dx dy : Rat) : Rect :=
  ⟨⟨rnd (r.origin.x + dx), rnd (r.origin.y + dy)⟩,
   ⟨max (rnd (r.size.width - rnd (dx * 2))) 0, max (rnd (r.size.height - rnd (dy * 2))) 0⟩⟩

/-- geometry.rs:189-196 `contains_point`, see `Rect.containsPoint`. -/
def Rect.containsPointR (r : Rect) (p : Point) : Bool :=
  decide (p.x ≥ r.minX) && decide (p.x ≤ r.maxXR rnd) && decide (p.y ≥ r.minY) && decide (p.y ≤ r.maxYR rnd)

/-- geometry.rs:229-311 `intersected_line`, see `Rect.intersectedLine`. -/
def Rect.intersectedLineR (r : Rect) (a b : Point) : Option (Point × Point) :=
  -- 230-234
  let (x, y, dx, dy) :=
    if b.x < a.x then (b.x, b.y, rnd (a.x - b.x), rnd (a.y - b.y))
    else (a.x, a.y, rnd (b.x - a.x), rnd (b.y - a.y))
  -- 236-239
  let left := r.minX
  let right := r.maxXR rnd
  let top := r.minY
  let bottom := r.maxYR rnd
  -- 241-244
  if x > left ∧ rnd (x + dx) < right ∧ y > top ∧ rnd (y + dy) < bottom then none
  else
    -- 246-254
    let p1 := -dx
    let p2 := -p1
    let p3 := -dy
    let p4 := -p3
    let q1 := rnd (x - left)
    let q2 := rnd (right - x)
    let q3 := rnd (y - top)
    let q4 := rnd (bottom - y)
    -- 256-263
    if (p1 = 0 ∧ q1 < 0) ∨ (p2 = 0 ∧ q2 < 0) ∨ (p3 = 0 ∧ q3 < 0) ∨ (p4 = 0 ∧ q4 < 0) then none
    else
      -- 265-269
      let posarr : List Rat := [1, 1]
      let negarr : List Rat := [0, 0]
      -- 271-282
      let (negarr, posarr) :=
        if p1 ≠ 0 then
          let r1 := rnd (q1 / p1)
          let r2 := rnd (q2 / p2)
          if p1 < 0 then (negarr ++ [r1], posarr ++ [r2]) else (negarr ++ [r2], posarr ++ [r1])
        else (negarr, posarr)
      -- 284-294
      let (negarr, posarr) :=
        if p3 ≠ 0 then
          let r3 := rnd (q3 / p3)
          let r4 := rnd (q4 / p4)
          if p3 < 0 then (negarr ++ [r3], posarr ++ [r4]) else (negarr ++ [r4], posarr ++ [r3])
        else (negarr, posarr)
      -- 296-302
      let rn1 := Rect.foldMax negarr
      let rn2 := Rect.foldMin posarr
      if rn1 > rn2 then none
      else
        -- 305-310
        some (⟨rnd (x + rnd (p2 * rn1)), rnd (y + rnd (p4 * rn1))⟩, ⟨rnd (x + rnd (p2 * rn2)), rnd (y + rnd (p4 * rn2))⟩)

/-- geometry.rs:225-227 `intersects_line`, see `Rect.intersectsLine`. -/
def Rect.intersectsLineR (r : Rect) (a b : Point) : Bool := (r.intersectedLineR rnd a b).isSome

/-- layout.rs:518 `SHAPE_JUNCTION_MARGIN`. -/
def marginR : Rat := rnd (RECORD_SPACE / 2)

/-- layout.rs:523-542, see `junctionsAroundShapes`. -/
def junctionsAroundShapesR (doc : Document) : List Point :=
  (shapeRects doc).flatMap fun r =>
    let j := r.insetByR rnd (-marginR rnd) (-marginR rnd)
    [j.origin, ⟨j.maxXR rnd, j.minY⟩, ⟨j.maxXR rnd, j.maxYR rnd⟩, ⟨j.minX, j.maxYR rnd⟩]

/-- layout.rs:547-635, see `junctionsFromTerminalPort`. -/
def junctionsFromTerminalPortR (doc : Document) (port : TerminalPort) (others : List Point) : List Point :=
  let rects := (shapeRects doc).map fun r => r.insetByR rnd (-marginR rnd) (-marginR rnd)
  let c := port.location
  match port.orientation with
  | .left =>
    -- 568-583
    let lineEnd : Point := ⟨f32Min, c.y⟩
    let minX := rects.foldl (init := (0 : Rat)) fun minX r =>
      if r.maxXR rnd < c.x ∧ r.intersectsLineR rnd c lineEnd then max minX (r.maxXR rnd) else minX
    others.filterMap fun j => if j.x ≤ c.x ∧ j.x ≥ minX then some ⟨j.x, c.y⟩ else none
  | .right =>
    -- 584-599
    let lineEnd : Point := ⟨f32Max, c.y⟩
    let maxX := rects.foldl (init := f32Max) fun maxX r =>
      if r.minX > c.x ∧ r.intersectsLineR rnd c lineEnd then min maxX r.minX else maxX
    others.filterMap fun j => if j.x ≥ c.x ∧ j.x ≤ maxX then some ⟨j.x, c.y⟩ else none
  | .up =>
    -- 600-615
    let lineEnd : Point := ⟨c.x, f32Max⟩
    let maxY := rects.foldl (init := f32Max) fun maxY r =>
      if r.minY > c.y ∧ r.intersectsLineR rnd c lineEnd then min maxY r.minY else maxY
    others.filterMap fun j => if j.y ≤ c.y ∧ j.y ≤ maxY then some ⟨c.x, j.y⟩ else none
  | .down =>
    -- 616-631
    let lineEnd : Point := ⟨c.x, f32Min⟩
    let minY := rects.foldl (init := (0 : Rat)) fun minY r =>
      if r.maxYR rnd < c.y ∧ r.intersectsLineR rnd c lineEnd then max minY (r.maxYR rnd) else minY
    others.filterMap fun j => if j.y ≥ c.y ∧ j.y ≥ minY then some ⟨c.x, j.y⟩ else none

/-- layout.rs:448-474, see `crossingJunctions`. -/
def crossingJunctionsR (doc : Document) (shapeJunctions : List Point) : List Point :=
  doc.edges.flatMap fun e =>
    (edgePorts doc e).flatMap fun pt => junctionsFromTerminalPortR rnd doc pt shapeJunctions

/-- layout.rs:637-671, see `removeOverlapped`. -/
def removeOverlappedR (doc : Document) (junctions : List Point) : List Point :=
  let rects := (shapeRects doc).map fun r =>
    r.insetByR rnd (-(rnd (marginR rnd - 1))) (-(rnd (marginR rnd - 1)))
  junctions.filter fun j => !rects.any (·.containsPointR rnd j)

/-- layout.rs:699-770, see `nearestStep`. -/
def nearestStepR (rects : List Rect) (n : RouteNodeData) (acc : Nearest) (b : RouteNodeId × RouteNodeData) : Nearest :=
  let m := b.2
  let p := n.location
  let q := m.location
  let noCollision := !rects.any (·.intersectsLineR rnd p q)
  if q.x = p.x ∧ q.y < p.y then
    if n.isConnectable .up && m.isConnectable .down then
      { acc with up := takeCandidate acc.up (fun c => decide (c.location.y < q.y)) noCollision b }
    else acc
  else if q.x = p.x ∧ q.y > p.y then
    if n.isConnectable .down && m.isConnectable .up then
      { acc with down := takeCandidate acc.down (fun c => decide (c.location.y > q.y)) noCollision b }
    else acc
  else if q.y = p.y ∧ q.x < p.x then
    if n.isConnectable .left && m.isConnectable .right then
      { acc with left := takeCandidate acc.left (fun c => decide (c.location.x < q.x)) noCollision b }
    else acc
  else if q.y = p.y ∧ q.x > p.x then
    if n.isConnectable .right && m.isConnectable .left then
      { acc with right := takeCandidate acc.right (fun c => decide (c.location.x > q.x)) noCollision b }
    else acc
  else acc

/-- layout.rs:694-770, see `nearestOf`. -/
def nearestOfR (rects : List Rect) (g : RouteGraph) (n : RouteNodeData) : Nearest :=
  g.indexed.foldl (nearestStepR rnd rects n) {}

/-- layout.rs:678-691, see `collisionRects`. -/
def collisionRectsR (doc : Document) : List Rect := (shapeRects doc).map fun r => r.insetByR rnd 1 1

/-- layout.rs:674-781, see `connectNearest`. -/
def connectNearestR (doc : Document) (g : RouteGraph) : RouteGraph :=
  let edges := g.indexed.flatMap fun (a, n) => (nearestOfR rnd (collisionRectsR rnd doc) g n).toEdges a
  edges.foldl (fun g (a, b) => g.addEdge a b) g

/-- layout.rs:443-499, see `buildRouteGraph`. -/
def buildRouteGraphR (doc : Document) (g : RouteGraph) : Except Panic RouteGraph :=
  let shapeJunctions := junctionsAroundShapesR rnd doc
  let crossing := crossingJunctionsR rnd doc shapeJunctions
  match addJunctions g (removeOverlappedR rnd doc (shapeJunctions ++ crossing)) with
  | .error e => .error e
  | .ok g =>
    match addTerminalPorts g (doc.edges.flatMap (edgePorts doc)) with
    | .error e => .error e
    | .ok g => .ok (connectNearestR rnd doc g)

variable (sq : Rat → Rat)

/-- geometry.rs:30-32 + layout.rs:841: `distance as u32`, see `Point.distanceU32`. -/
def Point.distanceU32R (a b : Point) : Nat :=
  let dx := rnd (a.x - b.x)
  let dy := rnd (a.y - b.y)
  min (sq (rnd (rnd (dx * dx) + rnd (dy * dy)))).floor.toNat 4294967295

/-- layout.rs:836-842, see `edgeCost`. -/
def edgeCostR (g : RouteGraph) (a b : RouteNodeId) : Nat :=
  match g.getNode a, g.getNode b with
  | some n, some m => n.location.distanceU32R rnd sq m.location
  | _, _ => 0

/-- layout.rs:825-853, see `computeShortestPath`. -/
def computeShortestPathR (q : Queue) (g : RouteGraph) (start goal : RouteNodeId) :
    Except Panic (Nat × List RouteNodeId) :=
  match astar q g (edgeCostR rnd sq g) start goal with
  | .error e => .error e
  | .ok none => .error .noRoute
  | .ok (some r) => .ok r

/-- layout.rs:799-813, see `bestPath`. -/
def bestPathR (q : Queue) (g : RouteGraph) :
    List (TerminalPort × TerminalPort) → Nat → Option (List RouteNodeId) → Except Panic (Option (List RouteNodeId))
  | [], _, path => .ok path
  | (src, dst) :: rest, cost, path =>
    match g.getTerminalPort src.id with
    | none => bestPathR q g rest cost path
    | some s =>
      match g.getTerminalPort dst.id with
      | none => bestPathR q g rest cost path
      | some t =>
        match computeShortestPathR rnd sq q g s t with
        | .error e => .error e
        | .ok (c, p) => if c < cost then bestPathR q g rest c (some p) else bestPathR q g rest cost path

/-- layout.rs:786-822, see `findShortestEdgesPath`. -/
def findShortestEdgesPathR (q : Queue) (doc : Document) (g : RouteGraph) (e : EdgeData) :
    Except Panic (Option (List Point)) :=
  match doc.getNode e.sourceId, doc.getNode e.targetId with
  | some s, some t =>
    match bestPathR rnd sq q g (portPairs s t) ROUTE_COST_MAX none with
    | .error e => .error e
    | .ok none => .ok none
    | .ok (some path) =>
      match pathLocations g path with
      | .error e => .error e
      | .ok ps => .ok (some ps)
  | _, _ => .ok none

/-- layout.rs:503-509, see `collectPaths`. -/
def collectPathsR (q : Queue) (doc : Document) (g : RouteGraph) : List EdgeData → Except Panic (List (List Point))
  | [] => .ok []
  | e :: es =>
    match findShortestEdgesPathR rnd sq q doc g e with
    | .error e => .error e
    | .ok r =>
      match collectPathsR q doc g es with
      | .error e => .error e
      | .ok rest => .ok (match r with | some p => p :: rest | none => rest)

/-- layout.rs:401-514 `draw_edge_path`, see `drawEdgePath`. -/
def drawEdgePathR (q : Queue) (doc : Document) (g : RouteGraph) : Except Panic (Document × RouteGraph) :=
  match buildRouteGraphR rnd doc g with
  | .error e => .error e
  | .ok g =>
    match collectPathsR rnd sq q doc g doc.edges with
    | .error e => .error e
    | .ok paths =>
      match assignPaths doc.edges paths with
      | .error e => .error e
      | .ok edges => .ok ({ doc with edges := edges }, g)

/-! ## Rendering -/

/-- renderer.rs:120-199, see `drawField`. -/
def drawFieldR (clipId : Str) (fieldIndex : Nat) (f : FieldShape) (r : Rect) : List Element :=
  let x := r.minX
  let y := r.minY
  -- 124-133
  (match f.bgColor with
   | some bg => [leaf c!"rect"
      [(c!"x", .num x), (c!"y", .num y), (c!"width", .num r.width), (c!"height", .num r.height),
       (c!"fill", .str bg.display), (c!"clip-path", .str (c!"url(#" ++ clipId ++ c!")"))]]
   | none => [])
  -- 136-148
  ++ (if fieldIndex > 0 then
       [leaf c!"line"
         ([(c!"x1", .num x), (c!"x2", .num (r.maxXR rnd)), (c!"y1", .num y), (c!"y2", .num y)]
          ++ (match f.borderColor with
              | some bc => [(c!"stroke", .str bc.display), (c!"stroke-width", .num 1)]
              | none => []))]
      else [])
  -- 161-166
  ++ [drawText f.title ⟨rnd (x + px), r.midYR rnd⟩ .start]
  -- 158, 169-176
  ++ (match f.subtitle with
      | some s => [drawText s ⟨rnd (x + rnd (rnd (r.width / 5) * 4)), r.midYR rnd⟩ .end]
      | none => [])
  -- 179-199
  ++ (match f.badge with
      | some b =>
        let rx := rnd (r.maxXR rnd - px)
        let cy := r.midYR rnd
        let bgRadius := rnd (rnd (r.height / 2) - 6)
        (match b.bgColor with
         | some bg => [leaf c!"circle"
            [(c!"cx", .num (rnd (rx - bgRadius))), (c!"cy", .num cy), (c!"r", .num bgRadius),
             (c!"fill", .str bg.display)]]
         | none => [])
        ++ [drawText b.intoTextSpan ⟨rnd (rx - bgRadius), cy⟩ .middle]
      | none => [])

/-- renderer.rs:115-200, see `drawFields`. -/
def drawFieldsR (doc : Document) (clipId : Str) : List (NodeId × Nat) → Except RenderError (List Element)
  | [] => .ok []
  | (fieldId, fieldIndex) :: rest =>
    match doc.getNode fieldId with
    | none => drawFieldsR doc clipId rest
    | some n =>
      match n.kind with
      | .field f =>
        match n.rect with
        | none => .error (.invalidLayout fieldId)
        | some r =>
          match drawFieldsR doc clipId rest with
          | .error e => .error e
          | .ok es => .ok (drawFieldR rnd clipId fieldIndex f r ++ es)
      | _ => drawFieldsR doc clipId rest

/-- renderer.rs:90-201, see `drawRecords`. -/
def drawRecordsR (doc : Document) : List (NodeId × Nat) → Except RenderError (List Element)
  | [] => .ok []
  | (childId, recordIndex) :: rest =>
    match doc.getNode childId with
    | none => drawRecordsR doc rest
    | some n =>
      match n.kind with
      | .record rec =>
        match n.origin with
        | none => .error (.invalidLayout childId)
        | some o =>
          match n.size with
          | none => .error (.invalidLayout childId)
          | some s =>
            -- 97-110
            let bg := leaf c!"rect"
              (recordRectAttrs o s ++ colorAttr c!"stroke" rec.borderColor ++ colorAttr c!"fill" rec.bgColor)
            match drawFieldsR rnd doc (clipPathId recordIndex) n.children.zipIdx with
            | .error e => .error e
            | .ok fields =>
              match drawRecordsR doc rest with
              | .error e => .error e
              | .ok es => .ok (bg :: fields ++ es)
      | _ => drawRecordsR doc rest

/-- renderer.rs:344-509, see `corner`. -/
def cornerR (i : Nat) (bp pt fp : Point) : Except Panic (List PathSeg) :=
  match bp.orthogonalDirection pt, pt.orthogonalDirection fp with
  | .up, .up | .down, .down | .left, .left | .right, .right => .ok [.lineTo pt]
  | .up, .down | .down, .up | .left, .right | .right, .left => .error (.turnaround i)
  | .up, .left => .ok [.lineTo ⟨pt.x, rnd (pt.y + pathRadius)⟩, .quadTo pt ⟨rnd (pt.x - pathRadius), pt.y⟩]
  | .right, .down => .ok [.lineTo ⟨rnd (pt.x - pathRadius), pt.y⟩, .quadTo pt ⟨pt.x, rnd (pt.y + pathRadius)⟩]
  | .up, .right => .ok [.lineTo ⟨pt.x, rnd (pt.y + pathRadius)⟩, .quadTo pt ⟨rnd (pt.x + pathRadius), pt.y⟩]
  | .down, .left => .ok [.lineTo ⟨pt.x, rnd (pt.y - pathRadius)⟩, .quadTo pt ⟨rnd (pt.x - pathRadius), pt.y⟩]
  | .down, .right => .ok [.lineTo ⟨pt.x, rnd (pt.y - pathRadius)⟩, .quadTo pt ⟨rnd (pt.x + pathRadius), pt.y⟩]
  | .left, .up => .ok [.lineTo ⟨rnd (pt.x + pathRadius), pt.y⟩, .quadTo pt ⟨pt.x, rnd (pt.y - pathRadius)⟩]
  | .left, .down => .ok [.lineTo ⟨rnd (pt.x + pathRadius), pt.y⟩, .quadTo pt ⟨pt.x, rnd (pt.y + pathRadius)⟩]
  | .right, .up => .ok [.lineTo ⟨rnd (pt.x - pathRadius), pt.y⟩, .quadTo pt ⟨pt.x, rnd (pt.y - pathRadius)⟩]

/-- renderer.rs:330-511, see `pathTail`. -/
def pathTailR (i : Nat) (bp : Point) : List Point → Except Panic (List PathSeg)
  | [] => .ok []
  | [pt] => .ok [.lineTo pt]
  | pt :: fp :: rest =>
    match cornerR rnd i bp pt fp with
    | .error e => .error e
    | .ok segs =>
      match pathTailR (i + 1) pt (fp :: rest) with
      | .error e => .error e
      | .ok segs' => .ok (segs ++ segs')

/-- renderer.rs:288, 328-511, see `pathData`. -/
def pathDataR : List Point → Except Panic (List PathSeg)
  | p :: q :: rest =>
    match pathTailR rnd 1 p (q :: rest) with
    | .error e => .error e
    | .ok segs => .ok (.moveTo p :: segs)
  | _ => .error .pathTooShort

/-- renderer.rs:271-520, see `drawEdgeConnection`. -/
def drawEdgeConnectionR (e : EdgeData) : Except RenderError (List Element) :=
  match e.pathPoints with
  | none => .error (.invalidLayout e.sourceId)
  | some points =>
    match pathDataR rnd points, points.head?, points.getLast? with
    | .ok d, some s, some t =>
      .ok [leaf c!"path"
            [(c!"stroke", .str strokeColor.display), (c!"stroke-width", .num (3/2)),
             (c!"fill", .str c!"transparent"), (c!"d", .path d)],
           endCircle s, endCircle t]
    | .error p, _, _ => .error (.panic p)
    | .ok _, _, _ => .error (.panic .pathTooShort)

/-- renderer.rs:204-207, see `drawEdges`. -/
def drawEdgesR : List EdgeData → Except RenderError (List Element)
  | [] => .ok []
  | e :: es =>
    match drawEdgeConnectionR rnd e with
    | .error err => .error err
    | .ok els =>
      match drawEdgesR es with
      | .error err => .error err
      | .ok rest => .ok (els ++ rest)

/-- renderer.rs:35-216 `render`, see `render`. -/
def renderR (viewBox : Option Rect) (doc : Document) : Except RenderError Element :=
  match clipPaths doc doc.bodyChildren.zipIdx with
  | .error e => .error e
  | .ok clips =>
    match drawRecordsR rnd doc doc.bodyChildren.zipIdx with
    | .error e => .error e
    | .ok records =>
      match drawEdgesR rnd doc.edges with
      | .error e => .error e
      | .ok edges =>
        let background := leaf c!"rect"
          [(c!"width", .str c!"100%"), (c!"height", .str c!"100%"), (c!"fill", .str backgroundColor.display)]
        let viewBoxAttr := match viewBox with
          | some v => [(c!"viewBox", AttrVal.nums [v.minX, v.minY, v.width, v.height])]
          | none => []
        .ok (.mk c!"svg" viewBoxAttr (background :: .mk c!"defs" [] clips none :: records ++ edges) none)

/-- main.rs:110-130, see `drawModule`. -/
def drawModuleR (q : Queue) (m : Module) : Except RenderError Element :=
  let (doc, viewBox) := placeNodesR rnd m.intoMir
  let doc := placeTerminalPortsR rnd doc
  match drawEdgePathR rnd sq q doc RouteGraph.new with
  | .error p => .error (.panic p)
  | .ok (doc, _) => renderR rnd (some viewBox) doc

end

end Seiren
