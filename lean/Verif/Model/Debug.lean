import Verif.Model.Main
/-!
# Model of the debug drawing (`src/renderer.rs:522-650`) and of `src/evcxr.rs`

main.rs:8,121-123 draws the debug information if the constant `DEBUG` is set; `SVGRenderer::edge_route_graph` is public,
so library users can ask for it too.
-/

namespace Seiren

/-- renderer.rs:528 `circle_radius` -/
def circleRadius : Rat := 4

/-- renderer.rs:546-571: the corners of the arrow at the end of a route edge. -/
def arrowPoints (src dst : Point) : List Point :=
  let x := dst.x
  let y := dst.y
  let width : Rat := 5 / 2
  let height : Rat := 7
  match src.orthogonalDirection dst with
  | .up => [⟨x, y + circleRadius⟩, ⟨x - width, y + height + circleRadius⟩, ⟨x + width, y + height + circleRadius⟩]
  | .down => [⟨x, y - circleRadius⟩, ⟨x - width, y - height - circleRadius⟩, ⟨x + width, y - height - circleRadius⟩]
  | .left => [⟨x + circleRadius, y⟩, ⟨x + height + circleRadius, y + width⟩, ⟨x + height + circleRadius, y - width⟩]
  | .right => [⟨x - circleRadius, y⟩, ⟨x - height - circleRadius, y + width⟩, ⟨x - height - circleRadius, y - width⟩]

/-- renderer.rs:531-590: the line and the arrow of one edge of the route graph; an edge whose ends do not exist is skipped. -/
def debugEdge (g : RouteGraph) (e : RouteNodeId × RouteNodeId) : List Element :=
  match g.getNode e.1 with
  | none => []
  | some src =>
    match g.getNode e.2 with
    | none => []
    | some dest =>
      let a := src.location
      let b := dest.location
      [leaf c!"line" [(c!"x1", .num a.x), (c!"y1", .num a.y), (c!"x2", .num b.x), (c!"y2", .num b.y),
         (c!"stroke", .str c!"red"), (c!"stroke-width", .num 1)],
       leaf c!"polygon" [(c!"fill", .str c!"red"), (c!"points", .points (arrowPoints a b))]]

/-- A number as text (`Display` of `usize`). -/
def natText (n : Nat) : Str := Nat.toDigits 10 n

/-- renderer.rs:598-604, 635-641: a small white text; layout.rs:157-161 and mir.rs:23-27: ids are displayed as their index. -/
def debugLabel (x y : Rat) (text : Str) : Element :=
  .mk c!"text" [(c!"x", .num x), (c!"y", .num y), (c!"dominant-baseline", .str c!"hanging"), (c!"fill", .str c!"white"),
    (c!"font-size", .num 12), (c!"font-family", .str c!"monospace")] [] (some text)

/-- renderer.rs:591-597, 616-622: a dot. -/
def debugDot (p : Point) (fill : Str) : Element :=
  leaf c!"circle" [(c!"cx", .num p.x), (c!"cy", .num p.y), (c!"r", .num circleRadius), (c!"stroke", .str c!"white"),
    (c!"stroke-width", .num 1), (c!"fill", .str fill)]

/-- renderer.rs:588-607: a node of the route graph.  `get_node(id).unwrap()` cannot fail: the ids are those of the nodes;
the `none` case is unreachable here. -/
def debugNode (g : RouteGraph) (id : RouteNodeId) : List Element :=
  match g.getNode id with
  | none => []
  | some n =>
    let pt := n.location
    [debugDot pt c!"red", debugLabel (pt.x + circleRadius + 2) (pt.y + 4) (natText id)]

/-- renderer.rs:609-625: the points of the path of an edge. -/
def debugPath (e : EdgeData) : List Element :=
  match e.pathPoints with
  | none => []
  | some ps => ps.map fun p => debugDot p c!"orange"

/-- renderer.rs:627-646: the id of a table, at its lower right corner. -/
def debugShape (doc : Document) (id : NodeId) : List Element :=
  match doc.getNode id with
  | none => []
  | some n =>
    match n.rect with
    | none => []
    | some r => [debugLabel (r.maxX + 2) (r.maxY + 4) (natText id)]

/-- renderer.rs:522-650 `draw_debug_info`: the elements it appends. -/
def drawDebugInfo (doc : Document) (g : RouteGraph) : List Element :=
  g.edges.flatMap (debugEdge g) ++ g.nodeIds.flatMap (debugNode g) ++ doc.edges.flatMap debugPath ++
    doc.bodyChildren.flatMap (debugShape doc)

/-- renderer.rs:35-216 `SVGRenderer::render` with the field `edge_route_graph`: 209-212 append the debug information to the
finished drawing. -/
def renderWith (viewBox : Option Rect) (graph : Option RouteGraph) (doc : Document) : Except RenderError Element :=
  match render viewBox doc with
  | .error e => .error e
  | .ok (.mk name attrs children text) =>
    .ok (.mk name attrs (match graph with
      | some g => children ++ drawDebugInfo doc g
      | none => children) text)

/-- main.rs:109-131 with `DEBUG = true`: the graph is the one of the layout engine after `draw_edge_path`. -/
def drawModuleDebug (q : Queue) (m : Module) : Except RenderError Element :=
  let (doc, viewBox) := placeNodes m.intoMir
  let doc := placeTerminalPorts doc
  match drawEdgePath q doc RouteGraph.new with
  | .error p => .error (.panic p)
  | .ok (doc, g) => renderWith (some viewBox) (some g) doc

/-- evcxr.rs:24-29 `SVGOutput::evcxr_display`: the text written to standard output (`println!` adds the last newline). -/
def evcxrDisplay (svg : Str) : Str :=
  c!"EVCXR_BEGIN_CONTENT image/svg+xml\n" ++ svg ++ c!"\nEVCXR_END_CONTENT" ++ c!"\n"

/-- evcxr.rs:32-43 `draw_erd`: render without debug information; `expect` panics on an error.  The text of the SVG is given
by `text`, the serialisation of the svg crate (see Model/SvgText). -/
def drawErd (text : Element → Str) (doc : Document) (viewBox : Option Rect) : Except RenderError Str :=
  match renderWith viewBox none doc with
  | .error e => .error e
  | .ok svg => .ok (text svg)

end Seiren
