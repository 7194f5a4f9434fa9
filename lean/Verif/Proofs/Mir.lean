import Verif.Spec.Mir
/-! # The document built by `into_mir` in closed form -/

namespace Seiren
open Spec

/-- Number of nodes created for an entity. -/
def defSize (d : EntityDefinition) : Nat := d.fields.length + 2

/-- The nodes created for an entity when the document has `b` nodes: header, columns, record. -/
def defNodes (b : Nat) (d : EntityDefinition) : List NodeData :=
  NodeData.new (.field (headerShape d)) :: d.fields.map (fun f => NodeData.new (.field (fieldShape f)))
    ++ [{ kind := .record recordShape, children := List.range' b (d.fields.length + 1) }]

/-- The nodes created for a list of entities. -/
def nodesFrom : Nat → List EntityDefinition → List NodeData
  | _, [] => []
  | b, d :: ds => defNodes b d ++ nodesFrom (b + defSize d) ds

/-- The ids of their records. -/
def recordIds : Nat → List EntityDefinition → List NodeId
  | _, [] => []
  | b, d :: ds => (b + d.fields.length + 1) :: recordIds (b + defSize d) ds

/-- The body node with the given children. -/
def bodyNode (c : List NodeId) : NodeData := { kind := .body, children := c }

@[simp] theorem defNodes_length (b : Nat) (d : EntityDefinition) : (defNodes b d).length = defSize d := by
  simp [defNodes, defSize]

@[simp] theorem recordIds_length (b : Nat) (ds : List EntityDefinition) : (recordIds b ds).length = ds.length := by
  induction ds generalizing b with
  | nil => rfl
  | cons d ds ih => simp [recordIds, ih]

theorem addFields_doc (entity : Str) (fs : List EntityField) (doc : Document) (paths : NodePaths) :
    (addFields entity fs doc paths).1 =
        { doc with nodes := doc.nodes ++ fs.map (fun f => NodeData.new (.field (fieldShape f))) } ∧
      (addFields entity fs doc paths).2.2 = List.range' doc.nodes.length fs.length := by
  induction fs generalizing doc paths with
  | nil => simp [addFields]
  | cons f fs ih =>
    have := ih (doc.createField (fieldShape f)).1 (paths.insert (.field entity f.name) (doc.createField (fieldShape f)).2)
    simp only [addFields]
    constructor
    · rw [this.1]; simp [Document.createField]
    · rw [this.2]; simp [Document.createField, List.range'_succ]

theorem foldl_appendChild (ids : List NodeId) (n : NodeData) :
    ids.foldl NodeData.appendChild n = { n with children := n.children ++ ids } := by
  induction ids generalizing n with
  | nil => simp
  | cons i ids ih => simp [ih, NodeData.appendChild]

theorem modify_last {α : Type} (l : List α) (a : α) (f : α → α) : (l ++ [a]).modify l.length f = l ++ [f a] := by
  induction l with
  | nil => rfl
  | cons x l ih => simp [ih]

theorem addDefinition_doc (d : EntityDefinition) (doc : Document) (paths : NodePaths) (c : List NodeId)
    (rest : List NodeData) (hn : doc.nodes = bodyNode c :: rest) (hb : doc.bodyId = 0) :
    (addDefinition d doc paths).1 =
      { doc with nodes := bodyNode (c ++ [1 + rest.length + d.fields.length + 1]) ::
          (rest ++ defNodes (1 + rest.length) d) } := by
  obtain ⟨nodes, edges, bodyId⟩ := doc
  simp only at hn hb
  subst hn hb
  have h := addFields_doc d.name d.fields (Document.createField ⟨bodyNode c :: rest, edges, 0⟩ (headerShape d)).1 paths
  unfold addDefinition
  simp only
  rw [h.1, h.2]
  simp only [Document.createField, Document.createRecord, Document.modifyNode, foldl_appendChild,
    List.cons_append, List.length_cons, List.length_append, List.length_map, List.length_nil,
    List.modify_zero_cons, List.modify_succ_cons]
  simp only [Document.mk.injEq, and_true, List.cons.injEq]
  constructor
  · simp [bodyNode, NodeData.appendChild]; omega
  · have e : rest.length + (0 + 1) + d.fields.length =
        (rest ++ [NodeData.new (.field (headerShape d))] ++
          d.fields.map (fun f => NodeData.new (.field (fieldShape f)))).length := by
      simp; omega
    have e2 := modify_last (rest ++ [NodeData.new (.field (headerShape d))] ++
          d.fields.map (fun f => NodeData.new (.field (fieldShape f))))
    rw [e, e2]
    simp [defNodes, NodeData.appendChild, NodeData.new, List.range'_succ]
    exact ⟨Nat.add_comm _ _, Or.inr (Nat.add_comm _ _)⟩

theorem foldl_addEntry_nodes (es : List ModuleEntry) (doc : Document) (paths : NodePaths) (c : List NodeId)
    (rest : List NodeData) (hn : doc.nodes = bodyNode c :: rest) (hb : doc.bodyId = 0) :
    let r := (es.foldl addEntryMir (doc, paths)).1
    r.nodes = bodyNode (c ++ recordIds (1 + rest.length) (definitions es)) ::
        (rest ++ nodesFrom (1 + rest.length) (definitions es)) ∧ r.bodyId = 0 := by
  induction es generalizing doc paths c rest with
  | nil => simp [definitions, recordIds, nodesFrom, hn, hb]
  | cons e es ih =>
    cases e with
    | definition d =>
      have h := addDefinition_doc d doc paths c rest hn hb
      have := ih (addDefinition d doc paths).1 (addDefinition d doc paths).2 _ _ (by rw [h]) (by rw [h]; exact hb)
      simp only [List.foldl_cons, addEntryMir]
      refine ⟨?_, this.2⟩
      rw [this.1]
      simp [definitions, recordIds, nodesFrom, defSize, Nat.add_assoc]
    | relation r =>
      simp only [List.foldl_cons, addEntryMir, definitions]
      apply ih
      · unfold addRelation; split <;> try split
        all_goals simp [Document.addEdge, hn]
      · unfold addRelation; split <;> try split
        all_goals simp [Document.addEdge, hb]

/-- The nodes of the document built from a module. -/
theorem intoMir_nodes (m : Module) :
    m.intoMir.nodes = bodyNode (recordIds 1 (definitions m.entries)) :: nodesFrom 1 (definitions m.entries) ∧
      m.intoMir.bodyId = 0 := by
  have := foldl_addEntry_nodes m.entries Document.new [] [] [] rfl rfl
  simpa [Module.intoMir] using this

end Seiren
