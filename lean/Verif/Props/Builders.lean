import Verif.Model.Builders
import Verif.Spec.Mir
import Mathlib.Data.List.Induction
/-! # C110: shapes are built as told, and no `unwrap` of `into_mir` fails -/

namespace Seiren
open Spec

/-! ## What a sequence of setter calls should give -/

namespace Spec

/-- The value of the last call that sets a given field; the default if there is none. -/
def lastSet {α β : Type} (f : α → Option β) (calls : List α) (dflt : β) : β := ((calls.filterMap f).getLast?).getD dflt

/-- A call of a setter of `TextSpanBuilder`. -/
inductive TextSpanCall where
  | text (v : Str) | color (v : Option WebColor) | fontFamily (v : Option FontFamily) | fontWeight (v : Option FontWeight)
  | fontSize (v : Option FontSize)

/-- A call of a setter of `BadgeBuilder`. -/
inductive BadgeCall where
  | text (v : Str) | color (v : Option WebColor) | bgColor (v : Option WebColor)

/-- A call of a setter of `RecordShapeBuilder`. -/
inductive RecordCall where
  | rounded (v : Bool) | bgColor (v : Option WebColor) | borderColor (v : Option WebColor)

/-- A call of a setter of `FieldShapeBuilder`. -/
inductive FieldCall where
  | title (v : TextSpan) | subtitle (v : Option TextSpan) | badge (v : Option Badge) | bgColor (v : Option WebColor)
  | borderColor (v : Option WebColor)

end Spec

/-- The setter that is called. -/
def TextSpanBuilder.call (b : TextSpanBuilder) : TextSpanCall → TextSpanBuilder
  | .text v => b.setText v
  | .color v => b.setColor v
  | .fontFamily v => b.setFontFamily v
  | .fontWeight v => b.setFontWeight v
  | .fontSize v => b.setFontSize v

/-- The setter that is called. -/
def BadgeBuilder.call (b : BadgeBuilder) : BadgeCall → BadgeBuilder
  | .text v => b.setText v
  | .color v => b.setColor v
  | .bgColor v => b.setBgColor v

/-- The setter that is called. -/
def RecordShapeBuilder.call (b : RecordShapeBuilder) : RecordCall → RecordShapeBuilder
  | .rounded v => b.setRounded v
  | .bgColor v => b.setBgColor v
  | .borderColor v => b.setBorderColor v

/-- The setter that is called. -/
def FieldShapeBuilder.call (b : FieldShapeBuilder) : FieldCall → FieldShapeBuilder
  | .title v => b.setTitle v
  | .subtitle v => b.setSubtitle v
  | .badge v => b.setBadge v
  | .bgColor v => b.setBgColor v
  | .borderColor v => b.setBorderColor v

theorem lastSet_append {α β : Type} (f : α → Option β) (calls : List α) (c : α) (dflt : β) :
    lastSet f (calls ++ [c]) dflt = (f c).getD (lastSet f calls dflt) := by
  unfold lastSet
  rw [List.filterMap_append]
  cases h : f c with
  | none => simp [h]
  | some v => simp [h]

/-- **C110**: whatever setters of a text are called in whatever order, `build` succeeds and each part is what was set last, or the default. -/
theorem C110_text_span (calls : List TextSpanCall) : (calls.foldl TextSpanBuilder.call {}).build = .ok
    { text := lastSet (fun c => match c with | .text v => some v | _ => none) calls []
      color := lastSet (fun c => match c with | .color v => some v | _ => none) calls none
      fontFamily := lastSet (fun c => match c with | .fontFamily v => some v | _ => none) calls none
      fontWeight := lastSet (fun c => match c with | .fontWeight v => some v | _ => none) calls none
      fontSize := lastSet (fun c => match c with | .fontSize v => some v | _ => none) calls none } := by
  induction calls using List.reverseRecOn with
  | nil => rfl
  | append_singleton cs c ih =>
    rw [List.foldl_append]
    simp only [TextSpanBuilder.build, Except.ok.injEq, TextSpan.mk.injEq, lastSet_append] at ih ⊢
    cases c <;> simp only [List.foldl_cons, List.foldl_nil, TextSpanBuilder.call, TextSpanBuilder.setText, TextSpanBuilder.setColor,
      TextSpanBuilder.setFontFamily, TextSpanBuilder.setFontWeight, TextSpanBuilder.setFontSize, Option.getD_some, Option.getD_none, ih, and_self]

/-- **C110**, for badges. -/
theorem C110_badge (calls : List BadgeCall) : (calls.foldl BadgeBuilder.call {}).build = .ok
    { text := lastSet (fun c => match c with | .text v => some v | _ => none) calls []
      color := lastSet (fun c => match c with | .color v => some v | _ => none) calls none
      bgColor := lastSet (fun c => match c with | .bgColor v => some v | _ => none) calls none } := by
  induction calls using List.reverseRecOn with
  | nil => rfl
  | append_singleton cs c ih =>
    rw [List.foldl_append]
    simp only [BadgeBuilder.build, Except.ok.injEq, Badge.mk.injEq, lastSet_append] at ih ⊢
    cases c <;> simp only [List.foldl_cons, List.foldl_nil, BadgeBuilder.call, BadgeBuilder.setText, BadgeBuilder.setColor,
      BadgeBuilder.setBgColor, Option.getD_some, Option.getD_none, ih, and_self]

/-- **C110**, for records. -/
theorem C110_record (calls : List RecordCall) : (calls.foldl RecordShapeBuilder.call {}).build = .ok
    { rounded := lastSet (fun c => match c with | .rounded v => some v | _ => none) calls false
      bgColor := lastSet (fun c => match c with | .bgColor v => some v | _ => none) calls none
      borderColor := lastSet (fun c => match c with | .borderColor v => some v | _ => none) calls none } := by
  induction calls using List.reverseRecOn with
  | nil => rfl
  | append_singleton cs c ih =>
    rw [List.foldl_append]
    simp only [RecordShapeBuilder.build, Except.ok.injEq, RecordShape.mk.injEq, lastSet_append] at ih ⊢
    cases c <;> simp only [List.foldl_cons, List.foldl_nil, RecordShapeBuilder.call, RecordShapeBuilder.setRounded, RecordShapeBuilder.setBgColor,
      RecordShapeBuilder.setBorderColor, Option.getD_some, Option.getD_none, ih, and_self]

/-- **C110**, for the lines of tables. -/
theorem C110_field (calls : List FieldCall) : (calls.foldl FieldShapeBuilder.call {}).build = .ok
    { title := lastSet (fun c => match c with | .title v => some v | _ => none) calls ⟨[], none, none, none, none⟩
      subtitle := lastSet (fun c => match c with | .subtitle v => some v | _ => none) calls none
      badge := lastSet (fun c => match c with | .badge v => some v | _ => none) calls none
      bgColor := lastSet (fun c => match c with | .bgColor v => some v | _ => none) calls none
      borderColor := lastSet (fun c => match c with | .borderColor v => some v | _ => none) calls none } := by
  induction calls using List.reverseRecOn with
  | nil => rfl
  | append_singleton cs c ih =>
    rw [List.foldl_append]
    simp only [FieldShapeBuilder.build, Except.ok.injEq, FieldShape.mk.injEq, lastSet_append] at ih ⊢
    cases c <;> simp only [List.foldl_cons, List.foldl_nil, FieldShapeBuilder.call, FieldShapeBuilder.setTitle, FieldShapeBuilder.setSubtitle,
      FieldShapeBuilder.setBadge, FieldShapeBuilder.setBgColor, FieldShapeBuilder.setBorderColor, Option.getD_some, Option.getD_none, ih, and_self]

/-- A colour that is set twice, and a size that is not set. -/
example : (([.color (some (.named .black)), .text c!"id", .color (some (.named .white))] : List TextSpanCall).foldl TextSpanBuilder.call {}).build =
    .ok { text := c!"id", color := some (.named .white) } := by decide

/-! ## `into_mir` -/

theorem headerShapeB_eq (d : EntityDefinition) : headerShapeB d = .ok (headerShape d) := rfl

theorem fieldShapeB_eq (f : EntityField) : fieldShapeB f = .ok (fieldShape f) := by
  obtain ⟨name, ty, key⟩ := f
  cases key with
  | none => rfl
  | some k => cases k <;> rfl

/-- **C110**: making the text of a badge does not panic. -/
theorem C110_badge_text (b : Badge) : b.intoTextSpanB = .ok b.intoTextSpan := rfl

theorem addFieldsB_eq (entity : Str) (fs : List EntityField) (doc : Document) (paths : NodePaths) :
    addFieldsB entity fs doc paths = .ok (addFields entity fs doc paths) := by
  induction fs generalizing doc paths with
  | nil => rfl
  | cons f fs ih => simp only [addFieldsB, addFields, fieldShapeB_eq, ih]

/-- What keeps the ends of relations and the body in the document. -/
def Spec.Inside (doc : Document) (paths : NodePaths) : Prop := doc.bodyId < doc.nodes.length ∧ ∀ p ∈ paths, p.2 < doc.nodes.length

theorem addFields_inside (entity : Str) (fs : List EntityField) (doc : Document) (paths : NodePaths) (h : Inside doc paths) :
    Inside (addFields entity fs doc paths).1 (addFields entity fs doc paths).2.1 := by
  induction fs generalizing doc paths with
  | nil => exact h
  | cons f fs ih =>
    rw [addFields]
    refine ih _ _ ⟨?_, ?_⟩
    · simp only [Document.createField, List.length_append, List.length_singleton]; exact Nat.lt_succ_of_lt h.1
    · intro p hp
      simp only [Document.createField, List.length_append, List.length_singleton]
      rcases List.mem_cons.mp hp with rfl | hp
      · exact Nat.lt_succ_self _
      · exact Nat.lt_succ_of_lt (h.2 p hp)

theorem updateNode_eq {d : Document} {i : NodeId} (h : i < d.nodes.length) (f : NodeData → NodeData) : d.updateNode i f = .ok (d.modifyNode i f) := by
  simp only [Document.updateNode, Document.modifyNode, List.getElem?_eq_getElem h]
  congr 2
  refine List.ext_getElem (by simp) fun j h1 h2 => ?_
  rw [List.getElem_set, List.getElem_modify]
  split
  · next e => subst e; rfl
  · rfl

theorem modifyNode_length (d : Document) (i : NodeId) (f : NodeData → NodeData) : (d.modifyNode i f).nodes.length = d.nodes.length := by
  simp [Document.modifyNode]

theorem addDefinitionB_eq (d : EntityDefinition) (doc : Document) (paths : NodePaths) (h : Inside doc paths) :
    addDefinitionB d doc paths = .ok (addDefinition d doc paths) ∧ Inside (addDefinition d doc paths).1 (addDefinition d doc paths).2 := by
  have h1 : Inside (doc.createField (headerShape d)).1 paths := by
    refine ⟨?_, fun p hp => ?_⟩ <;> simp only [Document.createField, List.length_append, List.length_singleton]
    · exact Nat.lt_succ_of_lt h.1
    · exact Nat.lt_succ_of_lt (h.2 p hp)
  have h2 := addFields_inside d.name d.fields _ _ h1
  unfold addDefinitionB addDefinition
  simp only [headerShapeB_eq, show recordShapeB = .ok recordShape from rfl, addFieldsB_eq]
  generalize addFields d.name d.fields (doc.createField (headerShape d)).1 paths = x at h2 ⊢
  obtain ⟨doc2, paths2, ids⟩ := x
  simp only at h2 ⊢
  have hr : (doc2.createRecord recordShape).2 < (doc2.createRecord recordShape).1.nodes.length := by
    simp [Document.createRecord]
  rw [updateNode_eq hr]
  simp only
  have hb : ((doc2.createRecord recordShape).1.modifyNode (doc2.createRecord recordShape).2
      fun n => ids.foldl NodeData.appendChild (n.appendChild (doc.createField (headerShape d)).2)).bodyId <
      ((doc2.createRecord recordShape).1.modifyNode (doc2.createRecord recordShape).2
      fun n => ids.foldl NodeData.appendChild (n.appendChild (doc.createField (headerShape d)).2)).nodes.length := by
    rw [modifyNode_length]
    simp only [Document.createRecord, Document.modifyNode, List.length_append, List.length_singleton]
    exact Nat.lt_succ_of_lt h2.1
  rw [updateNode_eq hb]
  refine ⟨rfl, ?_, ?_⟩
  · rw [modifyNode_length]; exact hb
  · intro p hp
    rw [modifyNode_length, modifyNode_length]
    rcases List.mem_cons.mp hp with rfl | hp
    · exact hr
    · simp only [Document.createRecord, List.length_append, List.length_singleton]
      exact Nat.lt_succ_of_lt (h2.2 p hp)

theorem pathOf_mem {paths : NodePaths} {k : EntityPath} {i : NodeId} (h : paths.get k = some i) : ∃ p ∈ paths, p.2 = i := by
  unfold NodePaths.get at h
  induction paths with
  | nil => cases h
  | cons p ps ih =>
    obtain ⟨a, b⟩ := p
    rw [List.lookup_cons] at h
    split at h
    · cases h; exact ⟨_, List.mem_cons_self, rfl⟩
    · obtain ⟨p, hp, e⟩ := ih h
      exact ⟨p, List.mem_cons_of_mem _ hp, e⟩

theorem addRelationB_eq (r : EntityRelation) (doc : Document) (paths : NodePaths) (h : Inside doc paths) :
    addRelationB r doc paths = .ok (addRelation r doc paths) ∧ Inside (addRelation r doc paths) paths := by
  unfold addRelationB addRelation
  cases hs : paths.get r.startPath with
  | none => exact ⟨rfl, h⟩
  | some s =>
    cases ht : paths.get r.endPath with
    | none => exact ⟨rfl, h⟩
    | some t =>
      obtain ⟨p, hp, rfl⟩ := pathOf_mem hs
      obtain ⟨p', hp', rfl⟩ := pathOf_mem ht
      simp only
      rw [if_pos ⟨h.2 p hp, h.2 p' hp'⟩]
      exact ⟨rfl, h⟩

theorem addEntriesB_eq (es : List ModuleEntry) (doc : Document) (paths : NodePaths) (h : Inside doc paths) :
    addEntriesB es doc paths = .ok (es.foldl addEntryMir (doc, paths)).1 := by
  induction es generalizing doc paths with
  | nil => rfl
  | cons e es ih =>
    cases e with
    | definition d =>
      obtain ⟨h1, h2⟩ := addDefinitionB_eq d doc paths h
      rw [addEntriesB, h1, List.foldl_cons]
      exact ih _ _ h2
    | relation r =>
      obtain ⟨h1, h2⟩ := addRelationB_eq r doc paths h
      rw [addEntriesB, h1, List.foldl_cons]
      exact ih _ _ h2

/-- **C110**: for every module, `into_mir` with all its builders, `unwrap`s and petgraph's check of the ends of edges does not panic, and its
document is that of the model used everywhere else. -/
theorem C110_into_mir (m : Module) : m.intoMirB = .ok m.intoMir :=
  addEntriesB_eq m.entries _ _ ⟨by decide, fun _ h => nomatch h⟩

/-- The panics are there to be excluded: a relation between nodes that are not in the document, and a change of a node that is not there. -/
example : addRelationB ⟨.entity c!"a", .entity c!"a"⟩ .new [(.entity c!"a", 5)] = .error .missingEnd ∧
    (Document.new.updateNode 1 id = .error .missingNode) := by decide

/-- A table with a key and a relation to itself. -/
example : (Module.intoMirB ⟨none, [.definition ⟨c!"a", [⟨c!"x", .int, some .primaryKey⟩]⟩, .relation ⟨.field c!"a" c!"x", .entity c!"a"⟩]⟩).map
      (fun d => (d.nodes.length, d.edges.map fun e => (e.sourceId, e.targetId))) = .ok (4, [(2, 3)]) := by decide +kernel

end Seiren
