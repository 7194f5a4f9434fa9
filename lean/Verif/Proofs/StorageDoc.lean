import Verif.Proofs.Storage
/-!
# Documents in petgraph's storage are the documents of the other models
-/

namespace Seiren
open Pg (Linked endIndex)

/-- The document has room in the storage. -/
def Document.Fits (d : Document) : Prop := d.nodes.length ≤ endIndex ∧ d.edges.length ≤ endIndex

/-- The invariant of a stored document: the lists are linked and the ends of an edge are the ids in its weight. -/
structure PgDocument.Good (d : PgDocument) : Prop where
  linked : Linked d.graph
  ends : d.graph.hist = d.graph.edgeWeights.map fun e => (e.sourceId, e.targetId)

theorem PgDocument.Good.nodes_le {d : PgDocument} (h : d.Good) : d.plain.nodes.length ≤ endIndex := by
  simpa [PgDocument.plain, Pg.Graph.nodeWeights] using h.linked.nodes

theorem PgDocument.Good.fits {d : PgDocument} (h : d.Good) : d.plain.Fits :=
  ⟨h.nodes_le, by simpa [PgDocument.plain, Pg.Graph.edgeWeights] using h.linked.edges⟩

theorem plain_nodes_length (d : PgDocument) : d.plain.nodes.length = d.graph.nodes.length := by simp [PgDocument.plain, Pg.Graph.nodeWeights]
theorem plain_edges_length (d : PgDocument) : d.plain.edges.length = d.graph.edges.length := by simp [PgDocument.plain, Pg.Graph.edgeWeights]

/-- `d'` has at least as many nodes and edges as `d`. -/
def Document.Grows (d d' : Document) : Prop := d.nodes.length ≤ d'.nodes.length ∧ d.edges.length ≤ d'.edges.length

theorem Document.Grows.refl (d : Document) : d.Grows d := ⟨le_refl _, le_refl _⟩
theorem Document.Grows.trans {a b c : Document} (h : a.Grows b) (h' : b.Grows c) : a.Grows c := ⟨h.1.trans h'.1, h.2.trans h'.2⟩
theorem Document.Grows.fits {a b : Document} (h : a.Grows b) (hf : b.Fits) : a.Fits := ⟨h.1.trans hf.1, h.2.trans hf.2⟩

theorem grows_addFields (entity : Str) (fs : List EntityField) (doc : Document) (paths : NodePaths) :
    doc.Grows (addFields entity fs doc paths).1 := by
  induction fs generalizing doc paths with
  | nil => exact .refl _
  | cons f fs ih =>
    refine Document.Grows.trans ?_ (ih (doc.createField (fieldShape f)).1 _)
    simp [Document.Grows, Document.createField]

theorem grows_addDefinition (d : EntityDefinition) (doc : Document) (paths : NodePaths) : doc.Grows (addDefinition d doc paths).1 := by
  have h := grows_addFields d.name d.fields (doc.createField (headerShape d)).1 paths
  have h0 : doc.Grows (doc.createField (headerShape d)).1 := by simp [Document.Grows, Document.createField]
  refine (h0.trans h).trans ?_
  unfold addDefinition
  simp [Document.Grows, Document.createRecord, Document.modifyNode]

theorem grows_addRelation (r : EntityRelation) (doc : Document) (paths : NodePaths) : doc.Grows (addRelation r doc paths) := by
  unfold addRelation
  split
  · exact .refl _
  · split
    · exact .refl _
    · simp [Document.Grows, Document.addEdge]

theorem grows_entries (es : List ModuleEntry) (st : Document × NodePaths) : st.1.Grows (es.foldl addEntryMir st).1 := by
  induction es generalizing st with
  | nil => exact .refl _
  | cons e es ih =>
    rw [List.foldl_cons]
    refine Document.Grows.trans ?_ (ih _)
    cases e with
    | definition d => exact grows_addDefinition d st.1 st.2
    | relation r => exact grows_addRelation r st.1 st.2

/-- The ids in the map are ids of nodes. -/
def NodePaths.Below (paths : NodePaths) (n : Nat) : Prop := ∀ p ∈ paths, p.2 < n

theorem NodePaths.Below.mono {paths : NodePaths} {n n' : Nat} (h : paths.Below n) (hn : n ≤ n') : paths.Below n' :=
  fun p hp => (h p hp).trans_le hn

theorem NodePaths.Below.insert {paths : NodePaths} {n i : Nat} (h : paths.Below n) (k : EntityPath) (hi : i < n) : (paths.insert k i).Below n := by
  intro p hp
  rcases List.mem_cons.mp hp with rfl | hp
  · exact hi
  · exact h p hp

theorem NodePaths.Below.get {paths : NodePaths} {n i : Nat} (h : paths.Below n) {k : EntityPath} (hg : paths.get k = some i) : i < n := by
  unfold NodePaths.get at hg
  induction paths with
  | nil => cases hg
  | cons p ps ih =>
    obtain ⟨k', v⟩ := p
    rw [List.lookup_cons] at hg
    split at hg
    · injection hg with hg
      subst hg
      exact h _ List.mem_cons_self
    · exact ih (fun q hq => h q (List.mem_cons_of_mem _ hq)) hg

/-! ## The operations -/

theorem createField_spec {p : PgDocument} (h : p.Good) (f : FieldShape) :
    (∃ p', p.createField f = .ok (p', (p.plain.createField f).2) ∧ p'.Good ∧ p'.plain = (p.plain.createField f).1) ∨
    (p.createField f = .error .full ∧ ¬ (p.plain.createField f).1.Fits) := by
  unfold PgDocument.createField
  by_cases hl : p.graph.nodes.length < endIndex
  · left
    obtain ⟨g', hg⟩ := Pg.addNode_ok p.graph (NodeData.new (.field f)) hl
    obtain ⟨h1, _, h3, h4⟩ := h.linked.addNode hg
    rw [hg]
    refine ⟨⟨g', p.bodyId⟩, by simp only [Document.createField, plain_nodes_length], ⟨h1, ?_⟩, ?_⟩
    · have := h.ends
      simp only [Pg.Graph.hist, Pg.Graph.edgeWeights, h4] at this ⊢
      exact this
    · simp [PgDocument.plain, Document.createField, h3, Pg.Graph.edgeWeights, h4]
  · right
    have := h.linked.nodes
    have he : p.graph.nodes.length = endIndex := by omega
    refine ⟨by simp [Pg.Graph.addNode, he], ?_⟩
    simp only [Document.Fits, Document.createField, List.length_append, plain_nodes_length, List.length_singleton]
    omega

theorem createRecord_spec {p : PgDocument} (h : p.Good) (f : RecordShape) :
    (∃ p', p.createRecord f = .ok (p', (p.plain.createRecord f).2) ∧ p'.Good ∧ p'.plain = (p.plain.createRecord f).1) ∨
    (p.createRecord f = .error .full ∧ ¬ (p.plain.createRecord f).1.Fits) := by
  unfold PgDocument.createRecord
  by_cases hl : p.graph.nodes.length < endIndex
  · left
    obtain ⟨g', hg⟩ := Pg.addNode_ok p.graph (NodeData.new (.record f)) hl
    obtain ⟨h1, _, h3, h4⟩ := h.linked.addNode hg
    rw [hg]
    refine ⟨⟨g', p.bodyId⟩, by simp only [Document.createRecord, plain_nodes_length], ⟨h1, ?_⟩, ?_⟩
    · have := h.ends
      simp only [Pg.Graph.hist, Pg.Graph.edgeWeights, h4] at this ⊢
      exact this
    · simp [PgDocument.plain, Document.createRecord, h3, Pg.Graph.edgeWeights, h4]
  · right
    have := h.linked.nodes
    have he : p.graph.nodes.length = endIndex := by omega
    refine ⟨by simp [Pg.Graph.addNode, he], ?_⟩
    simp only [Document.Fits, Document.createRecord, List.length_append, plain_nodes_length, List.length_singleton]
    omega

theorem modifyNode_spec {p : PgDocument} (h : p.Good) (id : NodeId) (f : NodeData → NodeData) :
    (p.modifyNode id f).Good ∧ (p.modifyNode id f).plain = p.plain.modifyNode id f := by
  refine ⟨⟨h.linked.modifyWeight id f, h.ends⟩, ?_⟩
  unfold PgDocument.plain PgDocument.modifyNode Document.modifyNode
  rw [Pg.nodeWeights_modifyWeight]
  rfl

theorem addEdge_spec {p : PgDocument} (h : p.Good) (e : EdgeData) (hs : e.sourceId < p.graph.nodes.length) (ht : e.targetId < p.graph.nodes.length) :
    (∃ p', p.addEdge e = .ok p' ∧ p'.Good ∧ p'.plain = p.plain.addEdge e) ∨ (p.addEdge e = .error .full ∧ ¬ (p.plain.addEdge e).Fits) := by
  unfold PgDocument.addEdge
  by_cases hl : p.graph.edges.length < endIndex
  · left
    obtain ⟨g', hg⟩ := Pg.addEdge_ok p.graph e hl hs ht
    obtain ⟨h1, _, h3, h4, h5⟩ := h.linked.addEdge hg
    rw [hg]
    refine ⟨_, rfl, ⟨h1, ?_⟩, ?_⟩
    · rw [h5, h4, h.ends]
      simp
    · simp [PgDocument.plain, Document.addEdge, h3, h4]
  · right
    have := h.linked.edges
    have he : p.graph.edges.length = endIndex := by omega
    refine ⟨by simp [Pg.Graph.addEdge, he], ?_⟩
    simp only [Document.Fits, Document.addEdge, List.length_append, plain_edges_length, List.length_singleton]
    omega

theorem addFieldsPg_spec (entity : Str) (fs : List EntityField) {p : PgDocument} (h : p.Good) {paths : NodePaths}
    (hb : paths.Below p.plain.nodes.length) :
    (∃ p', addFieldsPg entity fs p paths = .ok (p', (addFields entity fs p.plain paths).2) ∧ p'.Good ∧ p'.plain = (addFields entity fs p.plain paths).1 ∧
      (addFields entity fs p.plain paths).2.1.Below p'.plain.nodes.length) ∨
    (addFieldsPg entity fs p paths = .error .full ∧ ¬ (addFields entity fs p.plain paths).1.Fits) := by
  induction fs generalizing p paths with
  | nil => exact .inl ⟨p, rfl, h, rfl, hb⟩
  | cons f fs ih =>
    unfold addFieldsPg
    rcases createField_spec h (fieldShape f) with ⟨p', h1, h2, h3⟩ | ⟨h1, h2⟩
    · rw [h1]
      simp only
      have hb' : (paths.insert (.field entity f.name) (p.plain.createField (fieldShape f)).2).Below p'.plain.nodes.length := by
        refine NodePaths.Below.insert (hb.mono ?_) _ ?_ <;> rw [h3] <;> simp [Document.createField]
      rcases ih h2 hb' with ⟨p'', h4, h5, h6, h7⟩ | ⟨h4, h5⟩
      · left
        rw [h4]
        rw [h3] at h6 h7 ⊢
        exact ⟨p'', rfl, h5, h6, h7⟩
      · right
        rw [h4]
        rw [h3] at h5
        exact ⟨rfl, h5⟩
    · right
      rw [h1]
      exact ⟨rfl, fun hf => h2 ((grows_addFields entity fs _ _).fits hf)⟩

theorem addDefinitionPg_spec (d : EntityDefinition) {p : PgDocument} (h : p.Good) {paths : NodePaths} (hb : paths.Below p.plain.nodes.length) :
    (∃ p', addDefinitionPg d p paths = .ok (p', (addDefinition d p.plain paths).2) ∧ p'.Good ∧ p'.plain = (addDefinition d p.plain paths).1 ∧
      (addDefinition d p.plain paths).2.Below p'.plain.nodes.length) ∨
    (addDefinitionPg d p paths = .error .full ∧ ¬ (addDefinition d p.plain paths).1.Fits) := by
  have last : ((addFields d.name d.fields (p.plain.createField (headerShape d)).1 paths).1.createRecord recordShape).1.Grows
      (addDefinition d p.plain paths).1 := by
    unfold addDefinition
    simp [Document.Grows, Document.modifyNode]
  have mid : (addFields d.name d.fields (p.plain.createField (headerShape d)).1 paths).1.Grows (addDefinition d p.plain paths).1 := by
    refine Document.Grows.trans ?_ last
    simp [Document.Grows, Document.createRecord]
  unfold addDefinitionPg
  rcases createField_spec h (headerShape d) with ⟨p1, h1, h2, h3⟩ | ⟨h1, h2⟩
  swap
  · right
    rw [h1]
    exact ⟨rfl, fun hf => h2 (((grows_addFields _ _ _ _).trans mid).fits hf)⟩
  rw [h1]
  simp only
  have hb1 : paths.Below p1.plain.nodes.length := hb.mono (by rw [h3]; simp [Document.createField])
  rcases addFieldsPg_spec d.name d.fields h2 hb1 with ⟨p2, h4, h5, h6, h7⟩ | ⟨h4, h5⟩
  swap
  · right
    rw [h4]
    rw [h3] at h5
    exact ⟨rfl, fun hf => h5 (mid.fits hf)⟩
  rw [h4]
  simp only
  rcases createRecord_spec h5 recordShape with ⟨p3, h8, h9, h10⟩ | ⟨h8, h9⟩
  swap
  · right
    rw [h8]
    rw [h6, h3] at h9
    exact ⟨rfl, fun hf => h9 (last.fits hf)⟩
  left
  rw [h8]
  simp only
  obtain ⟨h11, h12⟩ := modifyNode_spec h9 (p2.plain.createRecord recordShape).2
    (fun n => (addFields d.name d.fields p1.plain paths).2.2.foldl NodeData.appendChild (n.appendChild (p.plain.createField (headerShape d)).2))
  obtain ⟨h13, h14⟩ := modifyNode_spec h11 p3.bodyId (·.appendChild (p2.plain.createRecord recordShape).2)
  have hbody : p3.bodyId = p2.plain.bodyId := by
    have := congrArg Document.bodyId h10
    exact this
  refine ⟨_, ?_, h13, ?_, ?_⟩
  · rw [h6, h3]
    rfl
  · rw [h14, h12, h10, hbody, h6, h3]
    rfl
  · rw [h14, h12, h10, h6, h3]
    unfold addDefinition
    simp only
    rw [h6, h3] at h7
    refine NodePaths.Below.insert (h7.mono ?_) _ ?_ <;> simp [Document.modifyNode, Document.createRecord]

theorem addRelationPg_spec (r : EntityRelation) {p : PgDocument} (h : p.Good) {paths : NodePaths} (hb : paths.Below p.plain.nodes.length) :
    (∃ p', addRelationPg r p paths = .ok p' ∧ p'.Good ∧ p'.plain = addRelation r p.plain paths) ∨
    (addRelationPg r p paths = .error .full ∧ ¬ (addRelation r p.plain paths).Fits) := by
  unfold addRelationPg addRelation
  cases hs : paths.get r.startPath with
  | none => exact .inl ⟨p, rfl, h, rfl⟩
  | some s =>
    cases ht : paths.get r.endPath with
    | none => exact .inl ⟨p, rfl, h, rfl⟩
    | some t =>
      have h1 := hb.get hs
      have h2 := hb.get ht
      rw [plain_nodes_length] at h1 h2
      exact addEdge_spec h _ h1 h2

theorem addEntriesPg_spec (es : List ModuleEntry) {p : PgDocument} (h : p.Good) {paths : NodePaths} (hb : paths.Below p.plain.nodes.length) :
    (∃ p', addEntriesPg es p paths = .ok p' ∧ p'.Good ∧ p'.plain = (es.foldl addEntryMir (p.plain, paths)).1) ∨
    (addEntriesPg es p paths = .error .full ∧ ¬ (es.foldl addEntryMir (p.plain, paths)).1.Fits) := by
  induction es generalizing p paths with
  | nil => exact .inl ⟨p, rfl, h, rfl⟩
  | cons e es ih =>
    rw [List.foldl_cons]
    cases e with
    | definition d =>
      unfold addEntriesPg
      rcases addDefinitionPg_spec d h hb with ⟨p', h1, h2, h3, h4⟩ | ⟨h1, h2⟩
      · rw [h1]
        have := ih h2 h4
        rw [h3] at this
        exact this
      · rw [h1]
        exact .inr ⟨rfl, fun hf => h2 ((grows_entries es (addDefinition d p.plain paths)).fits hf)⟩
    | relation r =>
      unfold addEntriesPg
      rcases addRelationPg_spec r h hb with ⟨p', h1, h2, h3⟩ | ⟨h1, h2⟩
      · rw [h1]
        have hb' : paths.Below p'.plain.nodes.length := hb.mono (by rw [h3]; exact (grows_addRelation r p.plain paths).1)
        have := ih h2 hb'
        rw [h3] at this
        exact this
      · rw [h1]
        exact .inr ⟨rfl, fun hf => h2 ((grows_entries es (addRelation r p.plain paths, paths)).fits hf)⟩

theorem intoMirPg_spec (m : Module) :
    (∃ p, m.intoMirPg = .ok p ∧ p.Good ∧ p.plain = m.intoMir) ∨ (m.intoMirPg = .error .full ∧ ¬ m.intoMir.Fits) := by
  unfold Module.intoMirPg PgDocument.new
  obtain ⟨g', hg⟩ := Pg.addNode_ok (Pg.Graph.new : Pg.Graph NodeData EdgeData) (NodeData.new .body) (by decide)
  obtain ⟨h1, h2, h3, h4⟩ := (Pg.linked_new (N := NodeData) (E := EdgeData)).addNode hg
  rw [hg]
  simp only
  have hp : (⟨g', (Pg.Graph.new : Pg.Graph NodeData EdgeData).nodes.length⟩ : PgDocument).plain = Document.new := by
    simp only [PgDocument.plain, h3, Pg.Graph.edgeWeights, h4]
    rfl
  have := addEntriesPg_spec m.entries (p := ⟨g', (Pg.Graph.new : Pg.Graph NodeData EdgeData).nodes.length⟩)
    ⟨h1, by simp [Pg.Graph.hist, Pg.Graph.edgeWeights, h4, Pg.Graph.new]⟩ (paths := []) (by intro q hq; cases hq)
  rw [hp] at this
  exact this

end Seiren
