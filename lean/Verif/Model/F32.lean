import Mathlib.Data.Int.Log
import Mathlib.Data.Rat.Floor
import Verif.Model.Layout
/-!
# `place_nodes` and `place_terminal_ports` in single precision

The rest of the model computes with exact rationals.  Here the two placement passes are written down once more,
operation by operation, with a rounding function `rnd` applied to the result of every floating-point operation and of
every conversion `as f32`.  The code as it runs is the instance `rnd := roundF32`; the exact model is the instance
`rnd := id` (`placeNodesR_id`, `placeTerminalPortsR_id` in `Verif/Props/F32.lean`).

Simplifications: infinities, `NaN` and `-0.0` are not represented; a result above `f32::MAX` is not turned into an
infinity (it does not occur in the theorems, which bound the height of the diagram).
-/

namespace Seiren

/-- Round to the nearest integer, ties to the even one (IEEE 754, roundTiesToEven). -/
def roundHalfEven (q : Rat) : Int :=
  let f := q.floor
  let r := q - f
  if r < 1 / 2 then f
  else if 1 / 2 < r then f + 1
  else if f % 2 = 0 then f
  else f + 1

/-- The exponent of the unit in the last place for numbers of the magnitude of `q`: 24 significant bits, but no smaller
than 2^-149 (subnormal numbers). -/
def ulpExp (q : Rat) : Int := max (-149) (Int.log 2 |q| - 23)

/-- The rounding of the IEEE 754 binary32 operations (`f32` in Rust): round to nearest, ties to even. -/
def roundF32 (q : Rat) : Rat :=
  if q = 0 then 0 else roundHalfEven (q / 2 ^ ulpExp q) * 2 ^ ulpExp q

section
variable (rnd : Rat → Rat)

/-- layout.rs:300-307, see `placeFields`. -/
def placeFieldsR (x baseY : Rat) (doc : Document) (fields : List (NodeId × Nat)) : Document :=
  fields.foldl (init := doc) fun doc (fieldId, fieldIndex) =>
    let y := rnd (baseY + rnd (LINE_HEIGHT * rnd fieldIndex))
    match doc.getNode fieldId with
    | none => doc
    | some n =>
      match n.kind with
      | .field _ =>
        doc.modifyNode fieldId fun n =>
          { n with origin := some ⟨x, y⟩, size := some ⟨RECORD_WIDTH, LINE_HEIGHT⟩ }
      | _ => doc

/-- layout.rs:277-308, see `placeRecord`. -/
def placeRecordR (st : PlaceState) (child : NodeId × Nat) : PlaceState :=
  let (childId, recordIndex) := child
  -- 278-282
  let st :=
    if recordIndex > 0 ∧ recordIndex % GRID_N_COLUMNS = 0 then
      { st with baseY := rnd (st.baseY + rnd (st.maxHeight + RECORD_SPACE)), maxHeight := f32Min }
    else st
  -- 284-285
  match st.doc.getNode childId with
  | none => st
  | some record =>
    match record.kind with
    | .record _ =>
      -- 287-295
      let nFields : Rat := rnd record.children.length
      let x := rnd (ORIGIN.x + rnd (rnd (RECORD_WIDTH + RECORD_SPACE) * rnd (recordIndex % GRID_N_COLUMNS : Nat)))
      let recordHeight := rnd (LINE_HEIGHT * nFields)
      let maxHeight := max recordHeight st.maxHeight
      let doc := st.doc.modifyNode childId fun n =>
        { n with origin := some ⟨x, st.baseY⟩, size := some ⟨RECORD_WIDTH, recordHeight⟩ }
      -- 298-307
      let doc := placeFieldsR rnd x st.baseY doc record.children.zipIdx
      { doc := doc, baseY := st.baseY, maxHeight := maxHeight }
    | _ => st

/-- layout.rs:267-317 `place_nodes`, see `placeNodes`. -/
def placeNodesR (doc : Document) : Document × Rect :=
  let st := doc.bodyChildren.zipIdx.foldl (placeRecordR rnd) { doc := doc, baseY := ORIGIN.y, maxHeight := f32Min }
  -- 311-316
  let minWidth := rnd (rnd (rnd (ORIGIN.x * 2) + rnd (rnd GRID_N_COLUMNS * RECORD_WIDTH))
    + rnd (rnd (GRID_N_COLUMNS - 1 : Nat) * RECORD_SPACE))
  let minHeight := rnd (rnd (st.baseY + st.maxHeight) + ORIGIN.y)
  (st.doc, ⟨Point.zero, ⟨minWidth, minHeight⟩⟩)

/-- geometry.rs:120-122 `mid_x` -/
def Rect.midXR (r : Rect) : Rat := rnd (r.origin.x + rnd (r.size.width / 2))
/-- geometry.rs:125-127 `max_x` -/
def Rect.maxXR (r : Rect) : Rat := rnd (r.origin.x + r.size.width)
/-- geometry.rs:135-137 `mid_y` -/
def Rect.midYR (r : Rect) : Rat := rnd (r.origin.y + rnd (r.size.height / 2))
/-- geometry.rs:140-142 `max_y` -/
def Rect.maxYR (r : Rect) : Rat := rnd (r.origin.y + r.size.height)

/-- layout.rs:328-333 (and 350-355), see `fourPorts`. -/
def fourPortsR (r : Rect) : List (Rat × Rat × Orientation) :=
  [(r.midXR rnd, r.minY, .up), (r.maxXR rnd, r.midYR rnd, .right), (r.midXR rnd, r.maxYR rnd, .down),
   (r.minX, r.midYR rnd, .left)]

/-- layout.rs:349-381, see `fieldPorts`. -/
def fieldPortsR (index count : Nat) (r : Rect) : List (Rat × Rat × Orientation) :=
  if count = 1 then fourPortsR rnd r
  else if index = 0 then
    [(r.midXR rnd, r.minY, .up), (r.maxXR rnd, r.midYR rnd, .right), (r.minX, r.midYR rnd, .left)]
  else if index = count - 1 then
    [(r.maxXR rnd, r.midYR rnd, .right), (r.midXR rnd, r.maxYR rnd, .down), (r.minX, r.midYR rnd, .left)]
  else [(r.maxXR rnd, r.midYR rnd, .right), (r.minX, r.midYR rnd, .left)]

/-- layout.rs:345-382, see `placeFieldPorts`. -/
def placeFieldPortsR (count : Nat) (doc : Document) (fields : List (NodeId × Nat)) : Document :=
  fields.foldl (init := doc) fun doc (fieldId, fieldIndex) =>
    match doc.getNode fieldId with
    | none => doc
    | some n =>
      match n.rect with
      | none => doc
      | some r => doc.modifyNode fieldId (addPorts fieldId (fieldPortsR rnd fieldIndex count r))

/-- layout.rs:322-383, see `placeRecordPorts`. -/
def placeRecordPortsR (doc : Document) (childId : NodeId) : Document :=
  match doc.getNode childId with
  | none => doc
  | some record =>
    match record.rect with
    | none => doc
    | some r =>
      let doc := doc.modifyNode childId (addPorts childId (fourPortsR rnd r))
      placeFieldPortsR rnd record.children.length doc record.children.zipIdx

/-- layout.rs:319-384 `place_terminal_ports`, see `placeTerminalPorts`. -/
def placeTerminalPortsR (doc : Document) : Document := doc.bodyChildren.foldl (placeRecordPortsR rnd) doc

end

end Seiren
