import Verif.Model.Steps
import Verif.Model.Renderer
/-!
# How many steps the whole program takes

The rest of what `main` does for a module (`src/main.rs:109-131`), once more with the number of its steps, in the way of
`Verif/Model/Steps.lean`: `into_mir`, `place_nodes`, `place_terminal_ports` and `render`.  A step is a round of a loop or an element that is
collected.  The attributes and children of the elements that are made (a fixed number for each) are not counted as steps; they are counted in the
bytes that are written (C99).

The results are those of the functions without counts (`C102_same`).
-/

namespace Seiren
open Steps

/-- `iter().collect()`. -/
def Steps.collect {α : Type} (xs : List α) : Steps (List α) := select some xs

/-! ## `into_mir` -/

/-- erd.rs:78-115, see `addFields`. -/
def sAddFields (entity : Str) : List EntityField → Document → NodePaths → Steps (Document × NodePaths × List NodeId)
  | [], doc, paths => done (doc, paths, [])
  | f :: fs, doc, paths =>
    let r := doc.createField (fieldShape f)
    round ((sAddFields entity fs r.1 (paths.insert (.field entity f.name) r.2)).andThen fun x => done (x.1, x.2.1, r.2 :: x.2.2))

/-- erd.rs:54-128, see `addDefinition`; the loop of lines 123-125 appends the fields to the record. -/
def sAddDefinition (d : EntityDefinition) (doc : Document) (paths : NodePaths) : Steps (Document × NodePaths) :=
  let h := doc.createField (headerShape d)
  (sAddFields d.name d.fields h.1 paths).andThen fun x =>
    let r := x.1.createRecord recordShape
    let paths := x.2.1.insert (.entity d.name) r.2
    let doc := r.1.modifyNode r.2 (·.appendChild h.2)
    (loop (fun doc id => done (doc.modifyNode r.2 (·.appendChild id))) doc x.2.2).andThen fun doc =>
      done (doc.modifyNode doc.bodyId (·.appendChild r.2), paths)

/-- erd.rs:42-139 `Module::into_mir`. -/
def Module.sIntoMir (m : Module) : Steps Document :=
  (loop (fun st e => match e with
    | .definition d => sAddDefinition d st.1 st.2
    | .relation r => done (addRelation r st.1 st.2, st.2)) (Document.new, ([] : NodePaths)) m.entries).andThen fun st => done st.1

/-! ## Placing -/

/-- layout.rs:298-307, see `placeFields`; line 298 collects the children. -/
def sPlaceFields (x baseY : Rat) (doc : Document) (children : List NodeId) : Steps Document :=
  (collect children).andThen fun ids =>
    loop (fun doc (c : NodeId × Nat) =>
      done (match doc.getNode c.1 with
        | none => doc
        | some n =>
          match n.kind with
          | .field _ => doc.modifyNode c.1 fun n =>
              { n with origin := some ⟨x, baseY + LINE_HEIGHT * c.2⟩, size := some ⟨RECORD_WIDTH, LINE_HEIGHT⟩ }
          | _ => doc)) doc ids.zipIdx

/-- layout.rs:277-308, see `placeRecord`. -/
def sPlaceRecord (st : PlaceState) (child : NodeId × Nat) : Steps PlaceState :=
  let st :=
    if child.2 > 0 ∧ child.2 % GRID_N_COLUMNS = 0 then
      { st with baseY := st.baseY + (st.maxHeight + RECORD_SPACE), maxHeight := f32Min }
    else st
  match st.doc.getNode child.1 with
  | none => done st
  | some record =>
    match record.kind with
    | .record _ =>
      let x := ORIGIN.x + (RECORD_WIDTH + RECORD_SPACE) * (child.2 % GRID_N_COLUMNS : Nat)
      let recordHeight := LINE_HEIGHT * (record.children.length : Rat)
      let maxHeight := max recordHeight st.maxHeight
      let doc := st.doc.modifyNode child.1 fun n =>
        { n with origin := some ⟨x, st.baseY⟩, size := some ⟨RECORD_WIDTH, recordHeight⟩ }
      (sPlaceFields x st.baseY doc record.children).andThen fun doc => done { doc := doc, baseY := st.baseY, maxHeight := maxHeight }
    | _ => done st

/-- layout.rs:267-317 `place_nodes`. -/
def sPlaceNodes (doc : Document) : Steps (Document × Rect) :=
  (collect doc.bodyChildren).andThen fun ids =>
    (loop sPlaceRecord { doc := doc, baseY := ORIGIN.y, maxHeight := f32Min } ids.zipIdx).andThen fun st =>
      let minWidth := ORIGIN.x * 2 + (GRID_N_COLUMNS : Rat) * RECORD_WIDTH + ((GRID_N_COLUMNS - 1 : Nat) : Rat) * RECORD_SPACE
      done (st.doc, ⟨Point.zero, ⟨minWidth, st.baseY + st.maxHeight + ORIGIN.y⟩⟩)

/-- layout.rs:327-335 and 348-381, see `addPorts`. -/
def sAddNodePorts (doc : Document) (id : NodeId) (ports : List (Rat × Rat × Orientation)) : Steps Document :=
  loop (fun doc p => done (doc.modifyNode id fun n => n.addTerminalPort id ⟨p.1, p.2.1⟩ p.2.2)) doc ports

/-- layout.rs:343-382, see `placeFieldPorts`; line 343 collects the children. -/
def sPlaceFieldPorts (doc : Document) (children : List NodeId) : Steps Document :=
  (collect children).andThen fun ids =>
    loop (fun doc (c : NodeId × Nat) =>
      match doc.getNode c.1 with
      | none => done doc
      | some n =>
        match n.rect with
        | none => done doc
        | some r => sAddNodePorts doc c.1 (fieldPorts c.2 children.length r)) doc ids.zipIdx

/-- layout.rs:322-383, see `placeRecordPorts`. -/
def sPlaceRecordPorts (doc : Document) (childId : NodeId) : Steps Document :=
  match doc.getNode childId with
  | none => done doc
  | some record =>
    match record.rect with
    | none => done doc
    | some r => (sAddNodePorts doc childId (fourPorts r)).andThen fun doc => sPlaceFieldPorts doc record.children

/-- layout.rs:319-384 `place_terminal_ports`. -/
def sPlaceTerminalPorts (doc : Document) : Steps Document :=
  (collect doc.bodyChildren).andThen fun ids => loop sPlaceRecordPorts doc ids

/-! ## Rendering -/

/-- renderer.rs:67-86, see `clipPaths`. -/
def sClipPaths (doc : Document) : List (NodeId × Nat) → Steps (Except RenderError (List Element))
  | [] => done (.ok [])
  | (childId, recordIndex) :: rest => round (
    match doc.getNode childId with
    | none => sClipPaths doc rest
    | some n =>
      match n.kind with
      | .record _ =>
        match n.origin with
        | none => done (.error (.invalidLayout childId))
        | some o =>
          match n.size with
          | none => done (.error (.invalidLayout childId))
          | some s => (sClipPaths doc rest).andThenE fun es =>
              done (.ok (.mk c!"clipPath" [(c!"id", .str (clipPathId recordIndex))] [leaf c!"rect" (recordRectAttrs o s)] none :: es))
      | _ => sClipPaths doc rest)

/-- renderer.rs:115-200, see `drawFields`. -/
def sDrawFields (doc : Document) (clipId : Str) : List (NodeId × Nat) → Steps (Except RenderError (List Element))
  | [] => done (.ok [])
  | (fieldId, fieldIndex) :: rest => round (
    match doc.getNode fieldId with
    | none => sDrawFields doc clipId rest
    | some n =>
      match n.kind with
      | .field f =>
        match n.rect with
        | none => done (.error (.invalidLayout fieldId))
        | some r => (sDrawFields doc clipId rest).andThenE fun es => done (.ok (drawField clipId fieldIndex f r ++ es))
      | _ => sDrawFields doc clipId rest)

/-- renderer.rs:90-201, see `drawRecords`. -/
def sDrawRecords (doc : Document) : List (NodeId × Nat) → Steps (Except RenderError (List Element))
  | [] => done (.ok [])
  | (childId, recordIndex) :: rest => round (
    match doc.getNode childId with
    | none => sDrawRecords doc rest
    | some n =>
      match n.kind with
      | .record rec =>
        match n.origin with
        | none => done (.error (.invalidLayout childId))
        | some o =>
          match n.size with
          | none => done (.error (.invalidLayout childId))
          | some s =>
            (sDrawFields doc (clipPathId recordIndex) n.children.zipIdx).andThenE fun fields =>
              (sDrawRecords doc rest).andThenE fun es =>
                done (.ok (leaf c!"rect" (recordRectAttrs o s ++ colorAttr c!"stroke" rec.borderColor ++ colorAttr c!"fill" rec.bgColor) :: fields ++ es))
      | _ => sDrawRecords doc rest)

/-- renderer.rs:330-511, see `pathTail`. -/
def sPathTail (i : Nat) (bp : Point) : List Point → Steps (Except Panic (List PathSeg))
  | [] => done (.ok [])
  | [pt] => round (done (.ok [.lineTo pt]))
  | pt :: fp :: rest => round (
    match corner i bp pt fp with
    | .error e => done (.error e)
    | .ok segs => (sPathTail (i + 1) pt (fp :: rest)).andThenE fun segs' => done (.ok (segs ++ segs')))

/-- renderer.rs:288, 328-517, see `pathData`; line 517 joins the commands. -/
def sPathData : List Point → Steps (Except Panic (List PathSeg))
  | p :: q :: rest => round ((sPathTail 1 p (q :: rest)).andThenE fun segs => (collect (.moveTo p :: segs)).andThen fun d => done (.ok d))
  | _ => done (.error .pathTooShort)

/-- renderer.rs:271-520 `draw_edge_connection`. -/
def sDrawEdgeConnection (e : EdgeData) : Steps (Except RenderError (List Element)) :=
  match e.pathPoints with
  | none => done (.error (.invalidLayout e.sourceId))
  | some points => (sPathData points).andThen fun d => done (
    match d, points.head?, points.getLast? with
    | .ok d, some s, some t =>
      .ok [leaf c!"path"
            [(c!"stroke", .str strokeColor.display), (c!"stroke-width", .num (3/2)),
             (c!"fill", .str c!"transparent"), (c!"d", .path d)],
           endCircle s, endCircle t]
    | .error p, _, _ => .error (.panic p)
    | .ok _, _, _ => .error (.panic .pathTooShort))

/-- renderer.rs:204-207, see `drawEdges`. -/
def sDrawEdges : List EdgeData → Steps (Except RenderError (List Element))
  | [] => done (.ok [])
  | e :: es => round ((sDrawEdgeConnection e).andThenE fun els => (sDrawEdges es).andThenE fun rest => done (.ok (els ++ rest)))

/-- renderer.rs:35-216 `SVGRenderer::render`, without the debug drawing and without the write to the output. -/
def sRender (viewBox : Option Rect) (doc : Document) : Steps (Except RenderError Element) :=
  (sClipPaths doc doc.bodyChildren.zipIdx).andThenE fun clips =>
    (sDrawRecords doc doc.bodyChildren.zipIdx).andThenE fun records =>
      (sDrawEdges doc.edges).andThenE fun edges =>
        let background := leaf c!"rect"
          [(c!"width", .str c!"100%"), (c!"height", .str c!"100%"), (c!"fill", .str backgroundColor.display)]
        let viewBoxAttr := match viewBox with
          | some v => [(c!"viewBox", AttrVal.nums [v.minX, v.minY, v.width, v.height])]
          | none => []
        done (.ok (.mk c!"svg" viewBoxAttr (background :: .mk c!"defs" [] clips none :: records ++ edges) none))

/-! ## The program -/

/-- main.rs:109-131, see `drawModule`. -/
def sDrawModule (q : Queue) (m : Module) : Steps (Except RenderError Element) :=
  m.sIntoMir.andThen fun doc =>
    (sPlaceNodes doc).andThen fun r =>
      (sPlaceTerminalPorts r.1).andThen fun doc =>
        (sDrawEdgePath q doc RouteGraph.new).andThen fun x => match x with
          | .error p => done (.error (.panic p))
          | .ok (doc, _) => sRender (some r.2) doc

end Seiren
