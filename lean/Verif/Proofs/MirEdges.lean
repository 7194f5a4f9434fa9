import Verif.Proofs.Mir
/-! # The edges of the document built by `into_mir` -/

namespace Seiren
open Spec

/-- The number of nodes created for a list of entities. -/
def sizeOf' (ds : List EntityDefinition) : Nat := (ds.map defSize).sum

/-- The id of a table or column, if `ds` are the definitions and the first node of them has id `b`. -/
def refId (b : Nat) (ds : List EntityDefinition) : NodeRef → Option NodeId
  | .table k => ds[k]?.map fun d => b + sizeOf' (ds.take k) + d.fields.length + 1
  | .column k j => ds[k]?.bind fun d => if j < d.fields.length then some (b + sizeOf' (ds.take k) + 1 + j) else none

theorem recordIds_getElem (b : Nat) (ds : List EntityDefinition) (k : Nat) :
    (recordIds b ds)[k]? = refId b ds (.table k) := by
  induction ds generalizing b k with
  | nil => simp [recordIds, refId]
  | cons d ds ih =>
    cases k with
    | zero => simp [recordIds, refId, sizeOf']
    | succ k =>
      rw [recordIds, List.getElem?_cons_succ, ih]
      simp [refId, sizeOf', Nat.add_assoc]

theorem refId_append (b : Nat) (ds es : List EntityDefinition) (r : NodeRef) (i : NodeId)
    (h : refId b ds r = some i) : refId b (ds ++ es) r = some i := by
  cases r with
  | table k =>
    simp only [refId, Option.map_eq_some_iff] at h ⊢
    obtain ⟨d, hd, rfl⟩ := h
    have hk := (List.getElem?_eq_some_iff.mp hd).1
    refine ⟨d, by rw [List.getElem?_append_left hk, hd], ?_⟩
    rw [List.take_append_of_le_length (le_of_lt hk)]
  | column k j =>
    simp only [refId, Option.bind_eq_some_iff] at h ⊢
    obtain ⟨d, hd, h⟩ := h
    have hk := (List.getElem?_eq_some_iff.mp hd).1
    refine ⟨d, by rw [List.getElem?_append_left hk, hd], ?_⟩
    rw [List.take_append_of_le_length (le_of_lt hk)]
    exact h

theorem get_insert (m : NodePaths) (k p : EntityPath) (v : NodeId) :
    (m.insert k v).get p = if p = k then some v else m.get p := by
  unfold NodePaths.insert NodePaths.get
  rw [List.lookup_cons]
  by_cases h : p = k
  · simp [h]
  · simp [h, beq_eq_false_iff_ne.mpr h]

theorem or_assoc' {α : Type} (a b c : Option α) : (a.or b).or c = a.or (b.or c) := by cases a <;> rfl

theorem addFields_paths (entity : Str) (fs : List EntityField) (doc : Document) (paths : NodePaths) (p : EntityPath) :
    (addFields entity fs doc paths).2.1.get p =
      match p with
      | .entity _ => paths.get p
      | .field e f =>
        if entity = e then
          ((fs.zipIdx doc.nodes.length).filterMap (fun c => if c.1.name = f then some c.2 else none)).getLast?.or
            (paths.get p)
        else paths.get p := by
  induction fs generalizing doc paths with
  | nil => cases p <;> simp [addFields]
  | cons c fs ih =>
    have h := ih (doc.createField (fieldShape c)).1 (paths.insert (.field entity c.name) (doc.createField (fieldShape c)).2)
    simp only [addFields]
    rw [h]
    cases p with
    | entity n => simp [get_insert]
    | field e f =>
      simp only [get_insert, EntityPath.field.injEq]
      by_cases he : entity = e
      · subst he
        have hl : (doc.createField (fieldShape c)).1.nodes.length = doc.nodes.length + 1 := by
          simp [Document.createField]
        simp only [if_true, true_and, hl, List.zipIdx_cons, List.filterMap_cons]
        by_cases hf : c.name = f
        · subst hf
          simp only [if_true, List.getLast?_cons]
          cases (List.filterMap (fun c_1 : EntityField × Nat => if c_1.1.name = c.name then some c_1.2 else none)
            (fs.zipIdx (doc.nodes.length + 1))).getLast? <;> simp [Document.createField]
        · have hf' : ¬ f = c.name := fun h => hf h.symm
          simp [hf, hf']
      · have he' : ¬ e = entity := fun h => he h.symm
        simp [he, he']

/-- What the loop keeps true about the map from paths to ids. -/
def PathsOk (ds : List EntityDefinition) (paths : NodePaths) : Prop :=
  ∀ p, match resolve ds p with
    | none => paths.get p = none
    | some r => ∃ i, refId 1 ds r = some i ∧ paths.get p = some i

theorem candidates_snoc (ds : List EntityDefinition) (d : EntityDefinition) (p : EntityPath) :
    candidates (ds ++ [d]) p = candidates ds p ++
      match p with
      | .entity n => if d.name = n then [.table ds.length] else []
      | .field e f => if d.name = e then
          d.fields.zipIdx.filterMap (fun (c, j) => if c.name = f then some (.column ds.length j) else none) else [] := by
  cases p with
  | entity n =>
    simp only [candidates, List.zipIdx_append, List.filterMap_append]
    congr 1
    by_cases h : d.name = n <;> simp [h]
  | field e f =>
    simp only [candidates, List.zipIdx_append, List.flatMap_append]
    congr 1
    simp

theorem PathsOk.step {ds : List EntityDefinition} {paths : NodePaths} (h : PathsOk ds paths) (d : EntityDefinition)
    (doc : Document) (hlen : doc.nodes.length = 1 + sizeOf' ds) : PathsOk (ds ++ [d]) (addDefinition d doc paths).2 := by
  intro p
  have hp := h p
  have key : (addDefinition d doc paths).2.get p =
      if p = .entity d.name then some (1 + sizeOf' ds + d.fields.length + 1)
      else (addFields d.name d.fields (doc.createField (headerShape d)).1 paths).2.1.get p := by
    unfold addDefinition
    simp only
    rw [get_insert]
    congr 1
    rw [(addFields_doc d.name d.fields _ paths).1]
    simp [Document.createRecord, Document.createField, hlen]
    exact (Nat.add_assoc _ _ _).symm
  rw [key, addFields_paths]
  cases p with
  | entity n =>
    simp only [resolve, candidates_snoc, EntityPath.entity.injEq] at hp ⊢
    by_cases hn : d.name = n
    · subst hn
      simp [refId]
    · have hn' : ¬ n = d.name := fun h => hn h.symm
      simp only [hn, if_false, List.append_nil, hn']
      revert hp
      cases hr : (candidates ds (.entity n)).getLast? with
      | none => exact fun hp => hp
      | some r => exact fun ⟨i, hi, hg⟩ => ⟨i, refId_append _ _ _ _ _ hi, hg⟩
  | field e f =>
    simp only [resolve, candidates_snoc, reduceCtorEq, if_false] at hp ⊢
    have old : match (candidates ds (.field e f)).getLast? with
        | none => paths.get (.field e f) = none
        | some r => ∃ i, refId 1 (ds ++ [d]) r = some i ∧ paths.get (.field e f) = some i := by
      revert hp
      cases hr : (candidates ds (.field e f)).getLast? with
      | none => exact fun hp => hp
      | some r => exact fun ⟨i, hi, hg⟩ => ⟨i, refId_append _ _ _ _ _ hi, hg⟩
    by_cases he : d.name = e
    · simp only [he, if_true]
      have hl : (doc.createField (headerShape d)).1.nodes.length = (1 + sizeOf' ds + 1) := by
        simp [Document.createField, hlen]
      rw [hl, List.zipIdx_eq_map_add (i := 1 + sizeOf' ds + 1), List.filterMap_map, List.getLast?_append]
      have e1 : List.filterMap ((fun c : EntityField × Nat => if c.1.name = f then some c.2 else none) ∘ fun x =>
          match x with | (a, j) => (a, 1 + sizeOf' ds + 1 + j)) d.fields.zipIdx =
          (List.filterMap (fun c : EntityField × Nat => if c.1.name = f then some c.2 else none) d.fields.zipIdx).map
            (1 + sizeOf' ds + 1 + ·) := by
        rw [List.map_filterMap]
        congr 1
        funext ⟨a, j⟩
        by_cases h : a.name = f <;> simp [h]
      have e2 : List.filterMap (fun x : EntityField × Nat =>
            if x.1.name = f then some (NodeRef.column ds.length x.2) else none) d.fields.zipIdx =
          (List.filterMap (fun c : EntityField × Nat => if c.1.name = f then some c.2 else none) d.fields.zipIdx).map
            (NodeRef.column ds.length) := by
        rw [List.map_filterMap]
        congr 1
        funext ⟨a, j⟩
        by_cases h : a.name = f <;> simp [h]
      rw [e1, e2, List.getLast?_map, List.getLast?_map]
      cases hj : (List.filterMap (fun c : EntityField × Nat => if c.1.name = f then some c.2 else none)
          d.fields.zipIdx).getLast? with
      | none => simpa using old
      | some j =>
        have hm := List.mem_of_getLast? hj
        rw [List.mem_filterMap] at hm
        obtain ⟨⟨c, j'⟩, hc, hcj⟩ := hm
        have : j' = j := by
          by_cases h : c.name = f
          · simpa [h] using hcj
          · simp [h] at hcj
        subst this
        have hlt : j' < d.fields.length := by
          have := (List.mem_zipIdx hc).2.1
          omega
        refine ⟨1 + sizeOf' ds + 1 + j', ?_, by simp⟩
        simp [refId, hlt]
    · simpa [he] using old

/-- The ids of the ends of the edges of a document. -/
def edgeEnds (doc : Document) : List (Option NodeId × Option NodeId) :=
  doc.edges.map fun e => (some e.sourceId, some e.targetId)

theorem foldl_addEntry_edges (es : List ModuleEntry) (defs : List EntityDefinition) (doc : Document) (paths : NodePaths)
    (c : List NodeId) (rest : List NodeData) (hn : doc.nodes = bodyNode c :: rest) (hb : doc.bodyId = 0)
    (hlen : rest.length = sizeOf' defs) (hp : PathsOk defs paths) :
    edgeEnds (es.foldl addEntryMir (doc, paths)).1 = edgeEnds doc ++ (connections defs es).map (fun c =>
      (refId 1 (defs ++ definitions es) c.1, refId 1 (defs ++ definitions es) c.2)) ∧
    ((∀ e ∈ doc.edges, e.pathPoints = none) → ∀ e ∈ (es.foldl addEntryMir (doc, paths)).1.edges, e.pathPoints = none) := by
  induction es generalizing defs doc paths c rest with
  | nil => simp [connections]
  | cons e es ih =>
    cases e with
    | definition d =>
      have h := addDefinition_doc d doc paths c rest hn hb
      have hp' := hp.step d doc (by rw [hn, List.length_cons, hlen, Nat.add_comm])
      have := ih (defs ++ [d]) (addDefinition d doc paths).1 (addDefinition d doc paths).2 _ _ (by rw [h])
        (by rw [h]; exact hb) (by simp [hlen, sizeOf']) hp'
      simp only [List.foldl_cons, addEntryMir, definitions, connections]
      have he : (addDefinition d doc paths).1.edges = doc.edges := by rw [h]
      have he' : edgeEnds (addDefinition d doc paths).1 = edgeEnds doc := by rw [edgeEnds, he]; rfl
      rw [he', he] at this
      simpa using this
    | relation r =>
      simp only [List.foldl_cons, addEntryMir, definitions, connections]
      have hs := hp r.startPath
      have ht := hp r.endPath
      unfold addRelation
      cases hrs : resolve defs r.startPath with
      | none =>
        rw [hrs] at hs
        simp only at hs ⊢
        rw [hs]
        exact ih defs doc paths c rest hn hb hlen hp
      | some s =>
        rw [hrs] at hs
        obtain ⟨i, hi, hgi⟩ := hs
        cases hrt : resolve defs r.endPath with
        | none =>
          rw [hrt] at ht
          simp only at ht ⊢
          rw [hgi, ht]
          exact ih defs doc paths c rest hn hb hlen hp
        | some t =>
          rw [hrt] at ht
          obtain ⟨j, hj, hgj⟩ := ht
          simp only
          rw [hgi, hgj]
          have := ih defs (doc.addEdge { sourceId := i, targetId := j, pathPoints := none }) paths c rest
            (by simpa [Document.addEdge] using hn) (by simpa [Document.addEdge] using hb) hlen hp
          refine ⟨?_, ?_⟩
          · rw [this.1]
            simp [edgeEnds, Document.addEdge, refId_append _ _ _ _ _ hi, refId_append _ _ _ _ _ hj]
          · intro hpp
            apply this.2
            intro e he
            simp only [Document.addEdge, List.mem_append, List.mem_singleton] at he
            rcases he with he | rfl
            · exact hpp e he
            · rfl

theorem connections_refId (m : Module) :
    edgeEnds m.intoMir = (connections [] m.entries).map (fun c =>
      (refId 1 (definitions m.entries) c.1, refId 1 (definitions m.entries) c.2)) ∧
    ∀ e ∈ m.intoMir.edges, e.pathPoints = none := by
  have := foldl_addEntry_edges m.entries [] Document.new [] [] [] rfl rfl rfl
    (fun p => by cases p <;> simp [resolve, candidates, NodePaths.get])
  constructor
  · simpa [edgeEnds, Document.new, Module.intoMir] using this.1
  · exact this.2 (by simp [Document.new])

theorem nodesFrom_length (b : Nat) (ds : List EntityDefinition) : (nodesFrom b ds).length = sizeOf' ds := by
  induction ds generalizing b with
  | nil => rfl
  | cons d ds ih => simp [nodesFrom, ih, sizeOf']

theorem nodesFrom_split (b : Nat) (ds : List EntityDefinition) (k : Nat) (d : EntityDefinition) (h : ds[k]? = some d) :
    ∃ post, nodesFrom b ds = nodesFrom b (ds.take k) ++ (defNodes (b + sizeOf' (ds.take k)) d ++ post) ∧
      post = nodesFrom (b + sizeOf' (ds.take k) + defSize d) (ds.drop (k + 1)) := by
  refine ⟨_, ?_, rfl⟩
  induction ds generalizing b k with
  | nil => simp at h
  | cons d' ds ih =>
    cases k with
    | zero =>
      simp only [List.getElem?_cons_zero, Option.some.injEq] at h
      subst h
      simp [nodesFrom, sizeOf']
    | succ k =>
      rw [List.getElem?_cons_succ] at h
      simp only [nodesFrom, List.take_succ_cons, List.drop_succ_cons, List.append_assoc]
      rw [ih _ _ h]
      simp [sizeOf', Nat.add_assoc]

/-- The node of a table in a document with the nodes of `into_mir`. -/
theorem record_node (b : Nat) (ds : List EntityDefinition) (k : Nat) (d : EntityDefinition) (h : ds[k]? = some d)
    (pre : List NodeData) (hpre : pre.length = b) :
    (pre ++ nodesFrom b ds)[b + sizeOf' (ds.take k) + d.fields.length + 1]? =
      some { kind := .record recordShape, children := List.range' (b + sizeOf' (ds.take k)) (d.fields.length + 1) } := by
  obtain ⟨post, e, -⟩ := nodesFrom_split b ds k d h
  rw [e, List.getElem?_append_right (by omega), List.getElem?_append_right (by rw [nodesFrom_length]; omega),
    nodesFrom_length, List.getElem?_append_left (by simp [defSize]; omega)]
  have : b + sizeOf' (List.take k ds) + d.fields.length + 1 - pre.length - sizeOf' (List.take k ds) =
    d.fields.length + 1 := by omega
  rw [this, defNodes, List.getElem?_append_right (by simp)]
  simp

theorem nodeOf_intoMir (m : Module) (r : NodeRef) :
    nodeOf m.intoMir r = refId 1 (definitions m.entries) r := by
  obtain ⟨h, hb⟩ := intoMir_nodes m
  unfold nodeOf
  rw [hb, h]
  simp only [List.getElem?_cons_zero, bodyNode]
  cases r with
  | table k => simp only [recordIds_getElem]
  | column k j =>
    simp only [recordIds_getElem]
    simp only [refId]
    cases hd : (definitions m.entries)[k]? with
    | none => simp
    | some d =>
      have := record_node 1 (definitions m.entries) k d hd [bodyNode (recordIds 1 (definitions m.entries))] rfl
      simp only [List.singleton_append, bodyNode] at this
      simp only [Option.map_some, this, Option.bind_some]
      by_cases hj : j < d.fields.length
      · rw [List.getElem?_range' (by omega)]
        simp [hj]; omega
      · simp [hj]

end Seiren
