import Verif.Model.Layout
/-!
# Model of `src/renderer.rs`

The SVG document is modelled as a tree of elements with typed attribute values; attributes are listed in the order in which
the code sets them (the crate sorts them by name when printing).  Model/SvgText turns the tree into text.
-/

namespace Seiren

/-- One command of the `d` attribute, renderer.rs:328-511: `M x y`, `L x y`, `Q cx cy x y`. -/
abbrev PathSeg := PathCommand

/-- Value of an attribute. -/
inductive AttrVal where
  | str (s : Str)
  | num (n : Rat)
  /-- renderer.rs:46-55: the `viewBox` value, four numbers joined by ", ". -/
  | nums (ns : List Rat)
  /-- renderer.rs:513-517: the `d` value, commands joined by blanks. -/
  | path (d : List PathSeg)
  /-- renderer.rs:579-586: a `points` value. -/
  | points (ps : List Point)
  deriving DecidableEq, Repr

/-- An SVG element: name, attributes, child elements, and text content (`svg::node::Text`) if it has some.  No
element of the output has both. -/
inductive Element where
  | mk (name : Str) (attrs : List (Str × AttrVal)) (children : List Element) (text : Option Str)
  deriving Repr

namespace Element
def name : Element → Str | .mk n _ _ _ => n
def attrs : Element → List (Str × AttrVal) | .mk _ a _ _ => a
def children : Element → List Element | .mk _ _ c _ => c
def text : Element → Option Str | .mk _ _ _ t => t
/-- The value of an attribute. -/
def attr (e : Element) (k : Str) : Option AttrVal := e.attrs.lookup k
end Element

/-- An element without children. -/
def leaf (name : Str) (attrs : List (Str × AttrVal)) : Element := .mk name attrs [] none

/-- How rendering can fail: error.rs:5-11 `BackendError::InvalidLayout`, or a panic.  I/O failures of the writer
are not modelled. -/
inductive RenderError where
  | invalidLayout (id : NodeId)
  | panic (p : Panic)
  deriving DecidableEq, Repr

/-- An optional attribute with a colour value. -/
def colorAttr (k : Str) (c : Option WebColor) : List (Str × AttrVal) :=
  match c with
  | some c => [(k, .str c.display)]
  | none => []

/-- renderer.rs:220-225 `SVGAnchor`. -/
inductive SVGAnchor where
  | start | middle | «end»
  deriving DecidableEq, Repr

/-- renderer.rs:228-234 `SVGAnchor::text_anchor`. -/
def SVGAnchor.textAnchor : SVGAnchor → Str
  | .start => c!"start"
  | .middle => c!"middle"
  | .end => c!"end"

/-- renderer.rs:238-269 `draw_text`. -/
def drawText (span : TextSpan) (origin : Point) (anchor : SVGAnchor) : Element :=
  .mk c!"text"
    ([(c!"x", .num origin.x), (c!"y", .num origin.y), (c!"dominant-baseline", .str c!"middle"),
      (c!"text-anchor", .str anchor.textAnchor)]
     ++ colorAttr c!"fill" span.color
     ++ (match span.fontFamily with | some f => [(c!"font-family", .str f.display)] | none => [])
     ++ (match span.fontWeight with | some f => [(c!"font-weight", .str f.display)] | none => [])
     ++ (match span.fontSize with | some f => [(c!"font-size", .str f.display)] | none => []))
    [] (some span.text)

/-- renderer.rs:36 `px` -/
def px : Rat := 12
/-- renderer.rs:37 `border_radius` -/
def borderRadius : Rat := 6
/-- renderer.rs:39, 283 `background_color` -/
def backgroundColor : WebColor := .rgb ⟨28, 28, 28⟩

/-- renderer.rs:82, 113: `record-clip-path-<index>`. -/
def clipPathId (index : Nat) : Str := c!"record-clip-path-" ++ (Nat.toDigits 10 index)

/-- The six attributes of a record's rectangle, renderer.rs:74-80 and 97-103. -/
def recordRectAttrs (o : Point) (s : Size) : List (Str × AttrVal) :=
  [(c!"x", .num o.x), (c!"y", .num o.y), (c!"width", .num s.width), (c!"height", .num s.height),
   (c!"rx", .num borderRadius), (c!"ry", .num borderRadius)]

/-- renderer.rs:67-86: the clip paths; `Err(InvalidLayout)` if a record has no origin or size. -/
def clipPaths (doc : Document) : List (NodeId × Nat) → Except RenderError (List Element)
  | [] => .ok []
  | (childId, recordIndex) :: rest =>
    match doc.getNode childId with
    | none => clipPaths doc rest
    | some n =>
      match n.kind with
      | .record _ =>
        match n.origin with
        | none => .error (.invalidLayout childId)
        | some o =>
          match n.size with
          | none => .error (.invalidLayout childId)
          | some s =>
            match clipPaths doc rest with
            | .error e => .error e
            | .ok es =>
              .ok (.mk c!"clipPath" [(c!"id", .str (clipPathId recordIndex))]
                    [leaf c!"rect" (recordRectAttrs o s)] none :: es)
      | _ => clipPaths doc rest

/-- renderer.rs:120-199: the elements of one field. -/
def drawField (clipId : Str) (fieldIndex : Nat) (f : FieldShape) (r : Rect) : List Element :=
  let x := r.minX
  let y := r.minY
  -- 124-133
  (match f.bgColor with
   | some bg => [leaf c!"rect"
      [(c!"x", .num x), (c!"y", .num y), (c!"width", .num r.width), (c!"height", .num r.height),
       (c!"fill", .str bg.display), (c!"clip-path", .str (c!"url(#" ++ clipId ++ c!")"))]]
   | none => [])
  -- 136-148
  ++ (if fieldIndex > 0 then
       [leaf c!"line"
         ([(c!"x1", .num x), (c!"x2", .num r.maxX), (c!"y1", .num y), (c!"y2", .num y)]
          ++ (match f.borderColor with
              | some bc => [(c!"stroke", .str bc.display), (c!"stroke-width", .num 1)]
              | none => []))]
      else [])
  -- 161-166
  ++ [drawText f.title ⟨x + px, r.midY⟩ .start]
  -- 158, 169-176
  ++ (match f.subtitle with
      | some s => [drawText s ⟨x + r.width / 5 * 4, r.midY⟩ .end]
      | none => [])
  -- 179-199
  ++ (match f.badge with
      | some b =>
        let rx := r.maxX - px
        let cy := r.midY
        let bgRadius := r.height / 2 - 6
        (match b.bgColor with
         | some bg => [leaf c!"circle"
            [(c!"cx", .num (rx - bgRadius)), (c!"cy", .num cy), (c!"r", .num bgRadius), (c!"fill", .str bg.display)]]
         | none => [])
        ++ [drawText b.intoTextSpan ⟨rx - bgRadius, cy⟩ .middle]
      | none => [])

/-- renderer.rs:115-200: the fields of one record. -/
def drawFields (doc : Document) (clipId : Str) : List (NodeId × Nat) → Except RenderError (List Element)
  | [] => .ok []
  | (fieldId, fieldIndex) :: rest =>
    match doc.getNode fieldId with
    | none => drawFields doc clipId rest
    | some n =>
      match n.kind with
      | .field f =>
        match n.rect with
        | none => .error (.invalidLayout fieldId)
        | some r =>
          match drawFields doc clipId rest with
          | .error e => .error e
          | .ok es => .ok (drawField clipId fieldIndex f r ++ es)
      | _ => drawFields doc clipId rest

/-- renderer.rs:90-201: the records. -/
def drawRecords (doc : Document) : List (NodeId × Nat) → Except RenderError (List Element)
  | [] => .ok []
  | (childId, recordIndex) :: rest =>
    match doc.getNode childId with
    | none => drawRecords doc rest
    | some n =>
      match n.kind with
      | .record rec =>
        match n.origin with
        | none => .error (.invalidLayout childId)
        | some o =>
          match n.size with
          | none => .error (.invalidLayout childId)
          | some s =>
            -- 97-110
            let bg := leaf c!"rect"
              (recordRectAttrs o s ++ colorAttr c!"stroke" rec.borderColor ++ colorAttr c!"fill" rec.bgColor)
            match drawFields doc (clipPathId recordIndex) n.children.zipIdx with
            | .error e => .error e
            | .ok fields =>
              match drawRecords doc rest with
              | .error e => .error e
              | .ok es => .ok (bg :: fields ++ es)
      | _ => drawRecords doc rest

/-- renderer.rs:276 `path_radius` -/
def pathRadius : Rat := 6

/-- renderer.rs:344-509: the commands for the point `pt` number `i` with predecessor `bp` and successor `fp`. -/
def corner (i : Nat) (bp pt fp : Point) : Except Panic (List PathSeg) :=
  match bp.orthogonalDirection pt, pt.orthogonalDirection fp with
  | .up, .up | .down, .down | .left, .left | .right, .right => .ok [.lineTo pt]
  | .up, .down | .down, .up | .left, .right | .right, .left => .error (.turnaround i)
  | .up, .left => .ok [.lineTo ⟨pt.x, pt.y + pathRadius⟩, .quadTo pt ⟨pt.x - pathRadius, pt.y⟩]
  | .right, .down => .ok [.lineTo ⟨pt.x - pathRadius, pt.y⟩, .quadTo pt ⟨pt.x, pt.y + pathRadius⟩]
  | .up, .right => .ok [.lineTo ⟨pt.x, pt.y + pathRadius⟩, .quadTo pt ⟨pt.x + pathRadius, pt.y⟩]
  | .down, .left => .ok [.lineTo ⟨pt.x, pt.y - pathRadius⟩, .quadTo pt ⟨pt.x - pathRadius, pt.y⟩]
  | .down, .right => .ok [.lineTo ⟨pt.x, pt.y - pathRadius⟩, .quadTo pt ⟨pt.x + pathRadius, pt.y⟩]
  | .left, .up => .ok [.lineTo ⟨pt.x + pathRadius, pt.y⟩, .quadTo pt ⟨pt.x, pt.y - pathRadius⟩]
  | .left, .down => .ok [.lineTo ⟨pt.x + pathRadius, pt.y⟩, .quadTo pt ⟨pt.x, pt.y + pathRadius⟩]
  | .right, .up => .ok [.lineTo ⟨pt.x - pathRadius, pt.y⟩, .quadTo pt ⟨pt.x, pt.y - pathRadius⟩]

/-- renderer.rs:330-511, for `i ≥ 1`: `bp` is the point number `i - 1`, the list holds the points from `i` on. -/
def pathTail (i : Nat) (bp : Point) : List Point → Except Panic (List PathSeg)
  | [] => .ok []
  | [pt] => .ok [.lineTo pt]
  | pt :: fp :: rest =>
    match corner i bp pt fp with
    | .error e => .error e
    | .ok segs =>
      match pathTail (i + 1) pt (fp :: rest) with
      | .error e => .error e
      | .ok segs' => .ok (segs ++ segs')

/-- renderer.rs:288, 328-511: the `d` attribute of an edge. -/
def pathData : List Point → Except Panic (List PathSeg)
  | p :: q :: rest =>
    match pathTail 1 p (q :: rest) with
    | .error e => .error e
    | .ok segs => .ok (.moveTo p :: segs)
  | _ => .error .pathTooShort

/-- renderer.rs:278-282 `stroke_color` -/
def strokeColor : WebColor := .rgb ⟨136, 136, 136⟩

/-- renderer.rs:294-307: the circle at an end of an edge. -/
def endCircle (p : Point) : Element :=
  leaf c!"circle"
    [(c!"cx", .num p.x), (c!"cy", .num p.y), (c!"r", .num 4), (c!"stroke", .str strokeColor.display),
     (c!"stroke-width", .num (3/2)), (c!"fill", .str backgroundColor.display)]

/-- renderer.rs:271-520 `draw_edge_connection`: path, start circle, end circle. -/
def drawEdgeConnection (e : EdgeData) : Except RenderError (List Element) :=
  match e.pathPoints with
  | none => .error (.invalidLayout e.sourceId)
  | some points =>
    match pathData points, points.head?, points.getLast? with
    | .ok d, some s, some t =>
      .ok [leaf c!"path"
            [(c!"stroke", .str strokeColor.display), (c!"stroke-width", .num (3/2)),
             (c!"fill", .str c!"transparent"), (c!"d", .path d)],
           endCircle s, endCircle t]
    | .error p, _, _ => .error (.panic p)
    | .ok _, _, _ => .error (.panic .pathTooShort)

/-- renderer.rs:204-207: all edges. -/
def drawEdges : List EdgeData → Except RenderError (List Element)
  | [] => .ok []
  | e :: es =>
    match drawEdgeConnection e with
    | .error err => .error err
    | .ok els =>
      match drawEdges es with
      | .error err => .error err
      | .ok rest => .ok (els ++ rest)

/-- renderer.rs:35-216 `SVGRenderer::render`, without the debug drawing (`edge_route_graph: None`, as in
main.rs:8,121) and without the write to the output: the root element. -/
def render (viewBox : Option Rect) (doc : Document) : Except RenderError Element :=
  match clipPaths doc doc.bodyChildren.zipIdx with
  | .error e => .error e
  | .ok clips =>
    match drawRecords doc doc.bodyChildren.zipIdx with
    | .error e => .error e
    | .ok records =>
      match drawEdges doc.edges with
      | .error e => .error e
      | .ok edges =>
        let background := leaf c!"rect"
          [(c!"width", .str c!"100%"), (c!"height", .str c!"100%"), (c!"fill", .str backgroundColor.display)]
        let viewBoxAttr := match viewBox with
          | some v => [(c!"viewBox", AttrVal.nums [v.minX, v.minY, v.width, v.height])]
          | none => []
        .ok (.mk c!"svg" viewBoxAttr (background :: .mk c!"defs" [] clips none :: records ++ edges) none)

end Seiren
