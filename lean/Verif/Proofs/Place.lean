import Verif.Spec.Layout
import Verif.Proofs.Mir
import Mathlib.Tactic.Ring
import Mathlib.Tactic.Linarith
/-! # `place_nodes` as a list of position assignments -/

namespace Seiren
open Spec

/-- Give a node a rectangle. -/
def setRect (r : Rect) (n : NodeData) : NodeData := { n with origin := some r.origin, size := some r.size }

/-- Give several nodes rectangles, in order. -/
def setRects (doc : Document) (us : List (NodeId × Rect)) : Document :=
  us.foldl (fun doc u => doc.modifyNode u.1 (setRect u.2)) doc

theorem setRects_append (doc : Document) (us vs : List (NodeId × Rect)) :
    setRects doc (us ++ vs) = setRects (setRects doc us) vs := by
  simp [setRects]

/-- The last rectangle assigned to a node. -/
def lastRect (us : List (NodeId × Rect)) (i : NodeId) : Option Rect :=
  ((us.filter (fun u => u.1 = i)).map (·.2)).getLast?

/-- A node with the rectangle it has been assigned, if any. -/
def applyRect (o : Option Rect) (n : NodeData) : NodeData :=
  match o with
  | none => n
  | some r => setRect r n

theorem setRects_getElem (doc : Document) (us : List (NodeId × Rect)) (i : NodeId) :
    (setRects doc us).nodes[i]? = doc.nodes[i]?.map (applyRect (lastRect us i)) ∧
      (setRects doc us).edges = doc.edges ∧ (setRects doc us).bodyId = doc.bodyId ∧
      (setRects doc us).nodes.length = doc.nodes.length := by
  induction us generalizing doc with
  | nil => simp [setRects, lastRect]; cases doc.nodes[i]? <;> rfl
  | cons u us ih =>
    have h := ih (doc.modifyNode u.1 (setRect u.2))
    have e : setRects doc (u :: us) = setRects (doc.modifyNode u.1 (setRect u.2)) us := rfl
    rw [e, h.1, h.2.1, h.2.2.1, h.2.2.2]
    refine ⟨?_, rfl, rfl, by simp [Document.modifyNode]⟩
    simp only [Document.modifyNode, List.getElem?_modify]
    by_cases hi : u.1 = i
    · simp only [hi, if_true, lastRect, List.filter_cons, decide_true, List.map_cons, List.getLast?_cons]
      cases doc.nodes[i]? with
      | none => rfl
      | some n =>
        simp only [Option.map_some]
        cases ((us.filter (fun u => u.1 = i)).map (·.2)).getLast? <;> simp [applyRect, setRect]
    · simp [hi, lastRect]

theorem applyRect_kind (o : Option Rect) (n : NodeData) : (applyRect o n).kind = n.kind := by cases o <;> rfl
theorem applyRect_children (o : Option Rect) (n : NodeData) : (applyRect o n).children = n.children := by cases o <;> rfl
theorem applyRect_ports (o : Option Rect) (n : NodeData) : (applyRect o n).terminalPorts = n.terminalPorts := by
  cases o <;> rfl

/-- The assignments made for the lines of a table. -/
def lineAssign (doc : Document) (x baseY : Rat) (fields : List (NodeId × Nat)) : List (NodeId × Rect) :=
  fields.filterMap fun (f, j) =>
    match doc.getNode f with
    | none => none
    | some n => match n.kind with
      | .field _ => some (f, ⟨⟨x, baseY + LINE_HEIGHT * j⟩, ⟨RECORD_WIDTH, LINE_HEIGHT⟩⟩)
      | _ => none

theorem placeFields_eq (doc : Document) (x baseY : Rat) (fields : List (NodeId × Nat)) (us : List (NodeId × Rect)) :
    placeFields x baseY (setRects doc us) fields = setRects doc (us ++ lineAssign doc x baseY fields) := by
  induction fields generalizing us with
  | nil => simp [placeFields, lineAssign]
  | cons f fs ih =>
    obtain ⟨f, j⟩ := f
    have e : placeFields x baseY (setRects doc us) ((f, j) :: fs) =
        placeFields x baseY (match (setRects doc us).getNode f with
          | none => setRects doc us
          | some n => match n.kind with
            | .field _ => (setRects doc us).modifyNode f (setRect ⟨⟨x, baseY + LINE_HEIGHT * j⟩, ⟨RECORD_WIDTH, LINE_HEIGHT⟩⟩)
            | _ => setRects doc us) fs := rfl
    rw [e, Document.getNode, (setRects_getElem doc us f).1]
    cases hn : doc.nodes[f]? with
    | none =>
      simp only [Option.map_none]
      rw [ih]
      simp [lineAssign, Document.getNode, hn]
    | some n =>
      simp only [Option.map_some, applyRect_kind]
      cases hk : n.kind with
      | field s =>
        simp only
        have e2 : (setRects doc us).modifyNode f (setRect ⟨⟨x, baseY + LINE_HEIGHT * j⟩, ⟨RECORD_WIDTH, LINE_HEIGHT⟩⟩) =
            setRects doc (us ++ [(f, ⟨⟨x, baseY + LINE_HEIGHT * j⟩, ⟨RECORD_WIDTH, LINE_HEIGHT⟩⟩)]) := by
          rw [setRects_append]; rfl
        rw [e2, ih]
        simp [lineAssign, Document.getNode, hn, hk]
      | body => simp only; rw [ih]; simp [lineAssign, Document.getNode, hn, hk]
      | record r => simp only; rw [ih]; simp [lineAssign, Document.getNode, hn, hk]

/-- The loop state with the document replaced by the assignments made so far. -/
structure AssignState where
  us : List (NodeId × Rect)
  baseY : Rat
  maxHeight : Rat

/-- `placeRecord` on assignments. -/
def assignStep (doc : Document) (st : AssignState) (child : NodeId × Nat) : AssignState :=
  let (childId, recordIndex) := child
  let st :=
    if recordIndex > 0 ∧ recordIndex % GRID_N_COLUMNS = 0 then
      { st with baseY := st.baseY + (st.maxHeight + RECORD_SPACE), maxHeight := f32Min }
    else st
  match doc.getNode childId with
  | none => st
  | some record =>
    match record.kind with
    | .record _ =>
      let x := ORIGIN.x + (RECORD_WIDTH + RECORD_SPACE) * (recordIndex % GRID_N_COLUMNS : Nat)
      let recordHeight := LINE_HEIGHT * (record.children.length : Rat)
      { us := st.us ++ ((childId, ⟨⟨x, st.baseY⟩, ⟨RECORD_WIDTH, recordHeight⟩⟩) ::
          lineAssign doc x st.baseY record.children.zipIdx)
        baseY := st.baseY
        maxHeight := max recordHeight st.maxHeight }
    | _ => st

theorem placeRecord_eq (doc : Document) (st : AssignState) (child : NodeId × Nat) :
    placeRecord ⟨setRects doc st.us, st.baseY, st.maxHeight⟩ child =
      ⟨setRects doc (assignStep doc st child).us, (assignStep doc st child).baseY,
        (assignStep doc st child).maxHeight⟩ := by
  obtain ⟨c, k⟩ := child
  unfold placeRecord assignStep
  simp only
  generalize hst : (if k > 0 ∧ k % GRID_N_COLUMNS = 0 then
      ({ st with baseY := st.baseY + (st.maxHeight + RECORD_SPACE), maxHeight := f32Min } : AssignState)
    else st) = st'
  have hst2 : (if k > 0 ∧ k % GRID_N_COLUMNS = 0 then
      ({ doc := setRects doc st.us, baseY := st.baseY + (st.maxHeight + RECORD_SPACE), maxHeight := f32Min } : PlaceState)
    else { doc := setRects doc st.us, baseY := st.baseY, maxHeight := st.maxHeight }) =
      ⟨setRects doc st'.us, st'.baseY, st'.maxHeight⟩ := by
    rw [← hst]; split <;> rfl
  rw [hst2]
  simp only [Document.getNode, (setRects_getElem doc st'.us c).1]
  cases hn : doc.nodes[c]? with
  | none => rfl
  | some n =>
    simp only [Option.map_some, applyRect_kind, applyRect_children]
    cases hk : n.kind with
    | body => rfl
    | field f => rfl
    | record r =>
      simp only [PlaceState.mk.injEq, and_true]
      have e2 : ∀ rr : Rect, (setRects doc st'.us).modifyNode c (fun n => { n with origin := some rr.origin, size := some rr.size }) =
            setRects doc (st'.us ++ [(c, rr)]) := by
        intro rr; rw [setRects_append]; rfl
      have := e2 ⟨⟨ORIGIN.x + (RECORD_WIDTH + RECORD_SPACE) * (k % GRID_N_COLUMNS : Nat), st'.baseY⟩,
        ⟨RECORD_WIDTH, LINE_HEIGHT * (n.children.length : Rat)⟩⟩
      simp only at this
      rw [this, placeFields_eq]
      simp

/-- The assignments of `place_nodes`. -/
def assignments (doc : Document) : AssignState :=
  doc.bodyChildren.zipIdx.foldl (assignStep doc) ⟨[], ORIGIN.y, f32Min⟩

theorem placeNodes_eq (doc : Document) :
    (placeNodes doc).1 = setRects doc (assignments doc).us ∧
    (placeNodes doc).2 = ⟨Point.zero, ⟨1160, (assignments doc).baseY + (assignments doc).maxHeight + 50⟩⟩ := by
  have key : ∀ (l : List (NodeId × Nat)) (st : AssignState),
      l.foldl placeRecord ⟨setRects doc st.us, st.baseY, st.maxHeight⟩ =
        ⟨setRects doc (l.foldl (assignStep doc) st).us, (l.foldl (assignStep doc) st).baseY,
          (l.foldl (assignStep doc) st).maxHeight⟩ := by
    intro l
    induction l with
    | nil => intro st; rfl
    | cons c l ih => intro st; simp only [List.foldl_cons]; rw [placeRecord_eq, ih]
  have := key doc.bodyChildren.zipIdx ⟨[], ORIGIN.y, f32Min⟩
  unfold placeNodes assignments
  have e : (⟨doc, ORIGIN.y, f32Min⟩ : PlaceState) = ⟨setRects doc [], ORIGIN.y, f32Min⟩ := rfl
  rw [e, this]
  refine ⟨rfl, ?_⟩
  simp [ORIGIN, GRID_N_COLUMNS, RECORD_WIDTH, RECORD_SPACE]
  norm_num

end Seiren
