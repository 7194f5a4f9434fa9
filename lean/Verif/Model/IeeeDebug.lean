import Verif.Model.IeeeDraw
import Verif.Model.Machine
import Verif.Model.Debug
/-!
# The debug drawing as computed on the machine (`src/renderer.rs:522-650`)

The functions of `Verif/Model/Debug.lean` that compute with `f32`, once with every operation passed through a function `rnd` that rounds
it (as in `Verif/Model/F32Draw.lean`), and once on all values of `f32` (as in `Verif/Model/IeeeDraw.lean`).
-/

namespace Seiren

/-! ## Rounded -/

section
variable (rnd : Rat → Rat)

/-- renderer.rs:546-571, see `arrowPoints`. -/
def arrowPointsR (src dst : Point) : List Point :=
  let x := dst.x
  let y := dst.y
  let width : Rat := rnd (5 / 2)
  let height : Rat := 7
  match src.orthogonalDirection dst with
  | .up => [⟨x, rnd (y + circleRadius)⟩, ⟨rnd (x - width), rnd (rnd (y + height) + circleRadius)⟩, ⟨rnd (x + width), rnd (rnd (y + height) + circleRadius)⟩]
  | .down => [⟨x, rnd (y - circleRadius)⟩, ⟨rnd (x - width), rnd (rnd (y - height) - circleRadius)⟩, ⟨rnd (x + width), rnd (rnd (y - height) - circleRadius)⟩]
  | .left => [⟨rnd (x + circleRadius), y⟩, ⟨rnd (rnd (x + height) + circleRadius), rnd (y + width)⟩, ⟨rnd (rnd (x + height) + circleRadius), rnd (y - width)⟩]
  | .right => [⟨rnd (x - circleRadius), y⟩, ⟨rnd (rnd (x - height) - circleRadius), rnd (y + width)⟩, ⟨rnd (rnd (x - height) - circleRadius), rnd (y - width)⟩]

/-- renderer.rs:531-590, see `debugEdge`. -/
def debugEdgeR (g : RouteGraph) (e : RouteNodeId × RouteNodeId) : List Element :=
  match g.getNode e.1 with
  | none => []
  | some src =>
    match g.getNode e.2 with
    | none => []
    | some dest =>
      let a := src.location
      let b := dest.location
      [leaf c!"line" [(c!"x1", .num a.x), (c!"y1", .num a.y), (c!"x2", .num b.x), (c!"y2", .num b.y),
         (c!"stroke", .str c!"red"), (c!"stroke-width", .num 1)],
       leaf c!"polygon" [(c!"fill", .str c!"red"), (c!"points", .points (arrowPointsR rnd a b))]]

/-- renderer.rs:588-607, see `debugNode`. -/
def debugNodeR (g : RouteGraph) (id : RouteNodeId) : List Element :=
  match g.getNode id with
  | none => []
  | some n =>
    let pt := n.location
    [debugDot pt c!"red", debugLabel (rnd (rnd (pt.x + circleRadius) + 2)) (rnd (pt.y + 4)) (natText id)]

/-- renderer.rs:627-646, see `debugShape`. -/
def debugShapeR (doc : Document) (id : NodeId) : List Element :=
  match doc.getNode id with
  | none => []
  | some n =>
    match n.rect with
    | none => []
    | some r => [debugLabel (rnd (r.maxXR rnd + 2)) (rnd (r.maxYR rnd + 4)) (natText id)]

/-- renderer.rs:522-650 `draw_debug_info`, see `drawDebugInfo`. -/
def drawDebugInfoR (doc : Document) (g : RouteGraph) : List Element :=
  g.edges.flatMap (debugEdgeR rnd g) ++ g.nodeIds.flatMap (debugNodeR rnd g) ++ doc.edges.flatMap debugPath ++
    doc.bodyChildren.flatMap (debugShapeR rnd doc)

/-- renderer.rs:35-216 `SVGRenderer::render`, see `renderWith`. -/
def renderWithR (viewBox : Option Rect) (graph : Option RouteGraph) (doc : Document) : Except RenderError Element :=
  match renderR rnd viewBox doc with
  | .error e => .error e
  | .ok (.mk name attrs children text) =>
    .ok (.mk name attrs (match graph with
      | some g => children ++ drawDebugInfoR rnd doc g
      | none => children) text)

/-- main.rs:109-131 with `DEBUG = true`, see `drawModuleDebug`. -/
def drawModuleDebugM (sq : Rat → Rat) (w : Nat → Nat) (q : Queue) (m : Module) : Except RenderError Element :=
  let (doc, viewBox) := placeNodesR rnd m.intoMir
  let doc := placeTerminalPortsR rnd doc
  match drawEdgePathM w (buildRouteGraphR rnd) (edgeCostR rnd sq) q doc RouteGraph.new with
  | .error p => .error (.panic p)
  | .ok (doc, g) => renderWithR rnd (some viewBox) (some g) doc

end

/-! ## On all values -/

/-- renderer.rs:528 `circle_radius` -/
def flCircleRadius : Fl := .fin 4

/-- renderer.rs:546-571, see `arrowPoints`. -/
def arrowPointsFl (src dst : FlPoint) : List FlPoint :=
  let x := dst.x
  let y := dst.y
  let width := Fl.div (.fin 5) Fl.two
  let height : Fl := .fin 7
  let r := flCircleRadius
  match src.orthogonalDirection dst with
  | .up => [⟨x, Fl.add y r⟩, ⟨Fl.sub x width, Fl.add (Fl.add y height) r⟩, ⟨Fl.add x width, Fl.add (Fl.add y height) r⟩]
  | .down => [⟨x, Fl.sub y r⟩, ⟨Fl.sub x width, Fl.sub (Fl.sub y height) r⟩, ⟨Fl.add x width, Fl.sub (Fl.sub y height) r⟩]
  | .left => [⟨Fl.add x r, y⟩, ⟨Fl.add (Fl.add x height) r, Fl.add y width⟩, ⟨Fl.add (Fl.add x height) r, Fl.sub y width⟩]
  | .right => [⟨Fl.sub x r, y⟩, ⟨Fl.sub (Fl.sub x height) r, Fl.add y width⟩, ⟨Fl.sub (Fl.sub x height) r, Fl.sub y width⟩]

/-- renderer.rs:531-590, see `debugEdge`.  (`stroke-width` is set to the integer 1.) -/
def debugEdgeFl (g : FlRouteGraph) (e : RouteNodeId × RouteNodeId) : List Element :=
  match g.getNode e.1 with
  | none => []
  | some src =>
    match g.getNode e.2 with
    | none => []
    | some dest =>
      let a := src.location
      let b := dest.location
      [leaf c!"line" [flAttr c!"x1" a.x, flAttr c!"y1" a.y, flAttr c!"x2" b.x, flAttr c!"y2" b.y,
         (c!"stroke", .str c!"red"), (c!"stroke-width", .str c!"1")],
       leaf c!"polygon" [(c!"fill", .str c!"red"),
         (c!"points", .str (joinWith c!" " ((arrowPointsFl a b).map fun p => p.x.display ++ c!", " ++ p.y.display)))]]

/-- renderer.rs:598-604, 635-641, see `debugLabel`.  (`font-size` is set to the integer 12.) -/
def debugLabelFl (x y : Fl) (text : Str) : Element :=
  .mk c!"text" [flAttr c!"x" x, flAttr c!"y" y, (c!"dominant-baseline", .str c!"hanging"), (c!"fill", .str c!"white"),
    (c!"font-size", .str c!"12"), (c!"font-family", .str c!"monospace")] [] (some text)

/-- renderer.rs:591-597, 616-622, see `debugDot`. -/
def debugDotFl (p : FlPoint) (fill : Str) : Element :=
  leaf c!"circle" [flAttr c!"cx" p.x, flAttr c!"cy" p.y, flAttr c!"r" flCircleRadius, (c!"stroke", .str c!"white"),
    (c!"stroke-width", .str c!"1"), (c!"fill", .str fill)]

/-- renderer.rs:588-607, see `debugNode`. -/
def debugNodeFl (g : FlRouteGraph) (id : RouteNodeId) : List Element :=
  match g.getNode id with
  | none => []
  | some n =>
    let pt := n.location
    [debugDotFl pt c!"red", debugLabelFl (Fl.add (Fl.add pt.x flCircleRadius) Fl.two) (Fl.add pt.y (.fin 4)) (natText id)]

/-- renderer.rs:609-625, see `debugPath`. -/
def debugPathFl (e : FlEdgeData) : List Element :=
  match e.pathPoints with
  | none => []
  | some ps => ps.map fun p => debugDotFl p c!"orange"

/-- renderer.rs:627-646, see `debugShape`. -/
def debugShapeFl (doc : FlDocument) (id : NodeId) : List Element :=
  match doc.getNode id with
  | none => []
  | some n =>
    match n.rect with
    | none => []
    | some r => [debugLabelFl (Fl.add r.maxX Fl.two) (Fl.add r.maxY (.fin 4)) (natText id)]

/-- renderer.rs:522-650 `draw_debug_info`, see `drawDebugInfo`. -/
def drawDebugInfoFl (doc : FlDocument) (g : FlRouteGraph) : List Element :=
  g.edges.flatMap (debugEdgeFl g) ++ (List.range g.nodes.length).flatMap (debugNodeFl g) ++ doc.edges.flatMap debugPathFl ++
    doc.bodyChildren.flatMap (debugShapeFl doc)

/-- renderer.rs:35-216 `SVGRenderer::render`, see `renderWith`. -/
def renderWithFl (viewBox : Option FlRect) (graph : Option FlRouteGraph) (doc : FlDocument) : Except RenderError Element :=
  match renderFl viewBox doc with
  | .error e => .error e
  | .ok (.mk name attrs children text) =>
    .ok (.mk name attrs (match graph with
      | some g => children ++ drawDebugInfoFl doc g
      | none => children) text)

/-- main.rs:109-131 with `DEBUG = true`, see `drawModuleDebug`. -/
def drawModuleDebugFl (tie : Fl → Fl → Bool) (w : Nat → Nat) (q : Queue) (m : Module) : Except RenderError Element :=
  let (doc, viewBox) := placeNodesFl tie (FlDocument.ofMir m.intoMir)
  let doc := placeTerminalPortsFl doc
  match drawEdgePathFl w tie q doc FlRouteGraph.new with
  | .error p => .error (.panic p)
  | .ok (doc, g) => renderWithFl (some viewBox) (some g) doc

end Seiren
