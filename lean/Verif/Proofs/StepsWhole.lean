import Verif.Model.StepsWhole
import Verif.Model.Main
import Verif.Proofs.Steps
/-! # The counted functions do what the functions without counts do -/

namespace Seiren
open Steps

theorem collect_val {α : Type} (xs : List α) : (collect xs).val = xs := by
  rw [collect, select_val, List.filterMap_some]

theorem collect_steps {α : Type} (xs : List α) : (collect xs).steps = xs.length := select_steps _ _

/-! ## Changing a node several times -/

theorem modifyNode_twice (doc : Document) (i : NodeId) (f g : NodeData → NodeData) :
    (doc.modifyNode i f).modifyNode i g = doc.modifyNode i (fun n => g (f n)) := by
  unfold Document.modifyNode
  simp only [Document.mk.injEq, and_true]
  refine List.ext_getElem? fun k => ?_
  simp only [List.getElem?_modify]
  split <;> cases doc.nodes[k]? <;> simp

theorem modifyNode_id (doc : Document) (i : NodeId) : doc.modifyNode i (fun n => n) = doc := by
  unfold Document.modifyNode
  have : doc.nodes.modify i (fun n => n) = doc.nodes := by
    refine List.ext_getElem? fun k => ?_
    simp only [List.getElem?_modify]
    split <;> cases doc.nodes[k]? <;> simp
  rw [this]

theorem modifyNode_foldl {α : Type} (i : NodeId) (f : α → NodeData → NodeData) (xs : List α) (doc : Document) :
    xs.foldl (fun doc x => doc.modifyNode i (f x)) doc = doc.modifyNode i (fun n => xs.foldl (fun n x => f x n) n) := by
  induction xs generalizing doc with
  | nil => exact (modifyNode_id doc i).symm
  | cons x xs ih => rw [List.foldl_cons, ih, modifyNode_twice]; rfl

/-! ## `into_mir` -/

theorem sAddFields_val (entity : Str) (fs : List EntityField) (doc : Document) (paths : NodePaths) :
    (sAddFields entity fs doc paths).val = addFields entity fs doc paths := by
  induction fs generalizing doc paths with
  | nil => rfl
  | cons f fs ih =>
    rw [sAddFields, round_val, andThen_val, ih]
    rfl

theorem sAddDefinition_val (d : EntityDefinition) (doc : Document) (paths : NodePaths) :
    (sAddDefinition d doc paths).val = addDefinition d doc paths := by
  rw [sAddDefinition, andThen_val, sAddFields_val, andThen_val, loop_val _ _ (fun _ _ => rfl)]
  simp only [done_val]
  rw [modifyNode_foldl, modifyNode_twice]
  rfl

theorem sIntoMir_val (m : Module) : m.sIntoMir.val = m.intoMir := by
  rw [Module.sIntoMir, andThen_val, loop_val _ addEntryMir]
  · rfl
  · intro st e
    cases e with
    | definition d => exact sAddDefinition_val d st.1 st.2
    | relation r => rfl

/-! ## Placing -/

theorem sPlaceFields_val (x y : Rat) (doc : Document) (ids : List NodeId) : (sPlaceFields x y doc ids).val = placeFields x y doc ids.zipIdx := by
  rw [sPlaceFields, andThen_val, collect_val, loop_val _ _ (fun _ _ => rfl)]
  rfl

theorem sPlaceRecord_val (st : PlaceState) (c : NodeId × Nat) : (sPlaceRecord st c).val = placeRecord st c := by
  unfold sPlaceRecord placeRecord
  simp only
  generalize (if c.2 > 0 ∧ c.2 % GRID_N_COLUMNS = 0 then _ else st : PlaceState) = st
  cases st.doc.getNode c.1 with
  | none => rfl
  | some n =>
    simp only
    cases n.kind <;> simp only [done_val, andThen_val, sPlaceFields_val]

theorem sPlaceNodes_val (doc : Document) : (sPlaceNodes doc).val = placeNodes doc := by
  rw [sPlaceNodes, andThen_val, collect_val, andThen_val, loop_val _ _ sPlaceRecord_val]
  rfl

theorem sAddNodePorts_val (doc : Document) (id : NodeId) (ps : List (Rat × Rat × Orientation)) :
    (sAddNodePorts doc id ps).val = doc.modifyNode id (addPorts id ps) := by
  rw [sAddNodePorts, loop_val _ _ (fun _ _ => rfl)]
  simp only [done_val]
  rw [modifyNode_foldl]
  rfl

theorem sPlaceFieldPorts_val (doc : Document) (ids : List NodeId) :
    (sPlaceFieldPorts doc ids).val = placeFieldPorts ids.length doc ids.zipIdx := by
  rw [sPlaceFieldPorts, andThen_val, collect_val, loop_val _ (fun doc (c : NodeId × Nat) => match doc.getNode c.1 with
    | none => doc
    | some n =>
      match n.rect with
      | none => doc
      | some r => doc.modifyNode c.1 (addPorts c.1 (fieldPorts c.2 ids.length r)))]
  · rfl
  · intro doc c
    cases doc.getNode c.1 with
    | none => rfl
    | some n =>
      simp only
      cases n.rect with
      | none => rfl
      | some r => exact sAddNodePorts_val _ _ _

theorem sPlaceRecordPorts_val (doc : Document) (id : NodeId) : (sPlaceRecordPorts doc id).val = placeRecordPorts doc id := by
  unfold sPlaceRecordPorts placeRecordPorts
  cases doc.getNode id with
  | none => rfl
  | some n =>
    simp only
    cases n.rect with
    | none => rfl
    | some r => simp only [andThen_val, sPlaceFieldPorts_val, sAddNodePorts_val]

theorem sPlaceTerminalPorts_val (doc : Document) : (sPlaceTerminalPorts doc).val = placeTerminalPorts doc := by
  rw [sPlaceTerminalPorts, andThen_val, collect_val, loop_val _ _ sPlaceRecordPorts_val]
  rfl

/-! ## Rendering -/

theorem sClipPaths_val (doc : Document) (cs : List (NodeId × Nat)) : (sClipPaths doc cs).val = clipPaths doc cs := by
  induction cs with
  | nil => rfl
  | cons c cs ih =>
    obtain ⟨id, i⟩ := c
    rw [sClipPaths, round_val, clipPaths]
    cases doc.getNode id with
    | none => exact ih
    | some n =>
      simp only
      cases n.kind <;> simp only [ih]
      cases n.origin with
      | none => rfl
      | some o =>
        simp only
        cases n.size with
        | none => rfl
        | some s => simp only [andThenE_val, ih]; cases clipPaths doc cs <;> rfl

theorem sDrawFields_val (doc : Document) (clip : Str) (cs : List (NodeId × Nat)) : (sDrawFields doc clip cs).val = drawFields doc clip cs := by
  induction cs with
  | nil => rfl
  | cons c cs ih =>
    obtain ⟨id, i⟩ := c
    rw [sDrawFields, round_val, drawFields]
    cases doc.getNode id with
    | none => exact ih
    | some n =>
      simp only
      cases n.kind <;> simp only [ih]
      cases n.rect with
      | none => rfl
      | some r => simp only [andThenE_val, ih]; cases drawFields doc clip cs <;> rfl

theorem sDrawRecords_val (doc : Document) (cs : List (NodeId × Nat)) : (sDrawRecords doc cs).val = drawRecords doc cs := by
  induction cs with
  | nil => rfl
  | cons c cs ih =>
    obtain ⟨id, i⟩ := c
    rw [sDrawRecords, round_val, drawRecords]
    cases doc.getNode id with
    | none => exact ih
    | some n =>
      simp only
      cases n.kind <;> simp only [ih]
      cases n.origin with
      | none => rfl
      | some o =>
        simp only
        cases n.size with
        | none => rfl
        | some s =>
          simp only [andThenE_val, sDrawFields_val]
          cases drawFields doc (clipPathId i) n.children.zipIdx with
          | error e => rfl
          | ok fs => simp only [ih]; cases drawRecords doc cs <;> rfl

theorem sPathTail_val (i : Nat) (bp : Point) (ps : List Point) : (sPathTail i bp ps).val = pathTail i bp ps := by
  induction ps generalizing i bp with
  | nil => rfl
  | cons p ps ih =>
    cases ps with
    | nil => rfl
    | cons q ps =>
      rw [sPathTail, round_val, pathTail]
      cases corner i bp p q with
      | error e => rfl
      | ok segs => simp only [andThenE_val, ih]; cases pathTail (i + 1) p (q :: ps) <;> rfl

theorem sPathData_val (ps : List Point) : (sPathData ps).val = pathData ps := by
  match ps with
  | [] => rfl
  | [_] => rfl
  | p :: q :: rest =>
    simp only [sPathData, pathData, round_val, andThenE_val, sPathTail_val]
    cases pathTail 1 p (q :: rest) with
    | error e => rfl
    | ok segs => simp only [andThen_val, collect_val, done_val]

theorem sDrawEdgeConnection_val (e : EdgeData) : (sDrawEdgeConnection e).val = drawEdgeConnection e := by
  unfold sDrawEdgeConnection drawEdgeConnection
  cases e.pathPoints with
  | none => rfl
  | some ps =>
    simp only [andThen_val, sPathData_val, done_val]
    cases pathData ps <;> cases ps.head? <;> cases ps.getLast? <;> rfl

theorem sDrawEdges_val (es : List EdgeData) : (sDrawEdges es).val = drawEdges es := by
  induction es with
  | nil => rfl
  | cons e es ih =>
    rw [sDrawEdges, round_val, andThenE_val, sDrawEdgeConnection_val, drawEdges]
    cases drawEdgeConnection e with
    | error p => rfl
    | ok els => simp only [andThenE_val, ih]; cases drawEdges es <;> rfl

theorem sRender_val (v : Option Rect) (doc : Document) : (sRender v doc).val = render v doc := by
  unfold sRender render
  rw [andThenE_val, sClipPaths_val]
  cases clipPaths doc doc.bodyChildren.zipIdx with
  | error e => rfl
  | ok clips =>
    simp only [andThenE_val, sDrawRecords_val]
    cases drawRecords doc doc.bodyChildren.zipIdx with
    | error e => rfl
    | ok records =>
      simp only [sDrawEdges_val]
      cases drawEdges doc.edges <;> rfl

/-! ## The program -/

theorem sDrawModule_val (q : Queue) (m : Module) : (sDrawModule q m).val = drawModule q m := by
  rw [sDrawModule, andThen_val, sIntoMir_val, andThen_val, sPlaceNodes_val, andThen_val, sPlaceTerminalPorts_val, andThen_val, sDrawEdgePath_val,
    drawModule]
  simp only
  cases drawEdgePath q (placeTerminalPorts (placeNodes m.intoMir).1) RouteGraph.new with
  | error p => rfl
  | ok r => exact sRender_val _ _

end Seiren
