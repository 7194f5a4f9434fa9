import Verif.Model.Main
import Verif.Spec.Rename
/-!
# The geometry of a drawing does not look at the texts and colours of the fields

`Document.reshape t` applies `t` to the shape of every field.  Placing, ports, the route graph and the routes commute with
it, because none of them reads a field's shape.
-/

namespace Seiren

/-- Apply `t` to the shape of a field. -/
def ShapeKind.reshape (t : FieldShape → FieldShape) : ShapeKind → ShapeKind
  | .field f => .field (t f)
  | k => k

/-- Apply `t` to the shape of a field node. -/
def NodeData.reshape (t : FieldShape → FieldShape) (n : NodeData) : NodeData := { n with kind := n.kind.reshape t }

/-- Apply `t` to the shapes of all fields. -/
def Document.reshape (t : FieldShape → FieldShape) (d : Document) : Document :=
  { d with nodes := d.nodes.map (NodeData.reshape t) }

section
variable (t : FieldShape → FieldShape)

@[simp] theorem NodeData.reshape_rect (n : NodeData) : (n.reshape t).rect = n.rect := rfl
@[simp] theorem NodeData.reshape_children (n : NodeData) : (n.reshape t).children = n.children := rfl
@[simp] theorem NodeData.reshape_terminalPorts (n : NodeData) : (n.reshape t).terminalPorts = n.terminalPorts := rfl
@[simp] theorem NodeData.reshape_origin (n : NodeData) : (n.reshape t).origin = n.origin := rfl
@[simp] theorem NodeData.reshape_size (n : NodeData) : (n.reshape t).size = n.size := rfl
@[simp] theorem NodeData.reshape_kind (n : NodeData) : (n.reshape t).kind = n.kind.reshape t := rfl
@[simp] theorem Document.reshape_edges (d : Document) : (d.reshape t).edges = d.edges := rfl
@[simp] theorem Document.reshape_bodyId (d : Document) : (d.reshape t).bodyId = d.bodyId := rfl

@[simp] theorem Document.reshape_getNode (d : Document) (i : NodeId) :
    (d.reshape t).getNode i = (d.getNode i).map (NodeData.reshape t) := by
  simp [Document.getNode, Document.reshape]

@[simp] theorem Document.reshape_bodyChildren (d : Document) : (d.reshape t).bodyChildren = d.bodyChildren := by
  unfold Document.bodyChildren
  rw [Document.reshape_getNode, Document.reshape_bodyId]
  cases d.getNode d.bodyId <;> rfl

theorem Document.reshape_modifyNode (d : Document) (i : NodeId) {f : NodeData → NodeData}
    (hf : ∀ n, f (n.reshape t) = (f n).reshape t) :
    (d.reshape t).modifyNode i f = (d.modifyNode i f).reshape t := by
  unfold Document.modifyNode Document.reshape
  congr 1
  apply List.ext_getElem?
  intro j
  simp only [List.getElem?_modify, List.getElem?_map]
  cases d.nodes[j]? with
  | none => rfl
  | some n => by_cases h : i = j <;> simp [h, hf]

theorem placeFields_reshape (x b : Rat) : ∀ (fs : List (NodeId × Nat)) (d : Document),
    placeFields x b (d.reshape t) fs = (placeFields x b d fs).reshape t := by
  intro fs
  induction fs with
  | nil => intro d; rfl
  | cons p fs ih =>
    intro d
    simp only [placeFields, List.foldl_cons] at ih ⊢
    rw [← ih]
    congr 1
    rw [Document.reshape_getNode]
    cases d.getNode p.1 with
    | none => rfl
    | some n =>
      cases hk : n.kind <;> simp [ShapeKind.reshape, hk]
      exact Document.reshape_modifyNode t d p.1 (fun _ => rfl)

theorem placeRecord_reshape (st : PlaceState) (c : NodeId × Nat) :
    placeRecord { st with doc := st.doc.reshape t } c =
      { placeRecord st c with doc := (placeRecord st c).doc.reshape t } := by
  have key : ∀ st : PlaceState,
      (match (st.doc.reshape t).getNode c.1 with
        | none => { st with doc := st.doc.reshape t }
        | some record =>
          match record.kind with
          | .record _ =>
            { doc := placeFields (ORIGIN.x + (RECORD_WIDTH + RECORD_SPACE) * (c.2 % GRID_N_COLUMNS : Nat)) st.baseY
                ((st.doc.reshape t).modifyNode c.1 fun n =>
                  { n with
                    origin := some ⟨ORIGIN.x + (RECORD_WIDTH + RECORD_SPACE) * (c.2 % GRID_N_COLUMNS : Nat), st.baseY⟩
                    size := some ⟨RECORD_WIDTH, LINE_HEIGHT * (record.children.length : Rat)⟩ })
                record.children.zipIdx
              baseY := st.baseY
              maxHeight := max (LINE_HEIGHT * (record.children.length : Rat)) st.maxHeight }
          | _ => ({ st with doc := st.doc.reshape t } : PlaceState)) =
      (fun s : PlaceState => { s with doc := s.doc.reshape t })
      (match st.doc.getNode c.1 with
        | none => st
        | some record =>
          match record.kind with
          | .record _ =>
            { doc := placeFields (ORIGIN.x + (RECORD_WIDTH + RECORD_SPACE) * (c.2 % GRID_N_COLUMNS : Nat)) st.baseY
                (st.doc.modifyNode c.1 fun n =>
                  { n with
                    origin := some ⟨ORIGIN.x + (RECORD_WIDTH + RECORD_SPACE) * (c.2 % GRID_N_COLUMNS : Nat), st.baseY⟩
                    size := some ⟨RECORD_WIDTH, LINE_HEIGHT * (record.children.length : Rat)⟩ })
                record.children.zipIdx
              baseY := st.baseY
              maxHeight := max (LINE_HEIGHT * (record.children.length : Rat)) st.maxHeight }
          | _ => st) := by
    intro st
    rw [Document.reshape_getNode]
    cases st.doc.getNode c.1 with
    | none => rfl
    | some n =>
      cases hk : n.kind <;> simp [ShapeKind.reshape, hk]
      rw [← placeFields_reshape]
      congr 1
      exact Document.reshape_modifyNode t st.doc c.1 (fun _ => rfl)
  unfold placeRecord
  by_cases h : c.2 > 0 ∧ c.2 % GRID_N_COLUMNS = 0
  · simp only [if_pos h]
    exact key { st with baseY := st.baseY + (st.maxHeight + RECORD_SPACE), maxHeight := f32Min }
  · simp only [if_neg h]
    exact key st

theorem foldl_placeRecord_reshape : ∀ (cs : List (NodeId × Nat)) (st : PlaceState),
    cs.foldl placeRecord { st with doc := st.doc.reshape t } =
      { cs.foldl placeRecord st with doc := (cs.foldl placeRecord st).doc.reshape t } := by
  intro cs
  induction cs with
  | nil => intro st; rfl
  | cons c cs ih => intro st; rw [List.foldl_cons, List.foldl_cons, placeRecord_reshape, ih]

theorem placeNodes_reshape (d : Document) :
    placeNodes (d.reshape t) = ((placeNodes d).1.reshape t, (placeNodes d).2) := by
  unfold placeNodes
  rw [Document.reshape_bodyChildren]
  have := foldl_placeRecord_reshape t d.bodyChildren.zipIdx { doc := d, baseY := ORIGIN.y, maxHeight := f32Min }
  simp only at this ⊢
  rw [this]

theorem addPorts_reshape (i : NodeId) : ∀ (ps : List (Rat × Rat × Orientation)) (n : NodeData),
    addPorts i ps (n.reshape t) = (addPorts i ps n).reshape t := by
  intro ps
  induction ps with
  | nil => intro n; rfl
  | cons p ps ih =>
    intro n
    simp only [addPorts, List.foldl_cons] at ih ⊢
    rw [← ih]
    rfl

theorem placeFieldPorts_reshape (c : Nat) : ∀ (fs : List (NodeId × Nat)) (d : Document),
    placeFieldPorts c (d.reshape t) fs = (placeFieldPorts c d fs).reshape t := by
  intro fs
  induction fs with
  | nil => intro d; rfl
  | cons p fs ih =>
    intro d
    simp only [placeFieldPorts, List.foldl_cons] at ih ⊢
    rw [← ih]
    congr 1
    rw [Document.reshape_getNode]
    cases d.getNode p.1 with
    | none => rfl
    | some n =>
      simp only [Option.map_some, NodeData.reshape_rect]
      cases n.rect with
      | none => rfl
      | some r => exact Document.reshape_modifyNode t d p.1 (addPorts_reshape t p.1 _)

theorem placeRecordPorts_reshape (d : Document) (c : NodeId) :
    placeRecordPorts (d.reshape t) c = (placeRecordPorts d c).reshape t := by
  unfold placeRecordPorts
  rw [Document.reshape_getNode]
  cases d.getNode c with
  | none => rfl
  | some n =>
    simp only [Option.map_some, NodeData.reshape_rect, NodeData.reshape_children]
    cases n.rect with
    | none => rfl
    | some r =>
      simp only
      rw [Document.reshape_modifyNode t d c (addPorts_reshape t c _), placeFieldPorts_reshape]

theorem placeTerminalPorts_reshape (d : Document) :
    placeTerminalPorts (d.reshape t) = (placeTerminalPorts d).reshape t := by
  unfold placeTerminalPorts
  rw [Document.reshape_bodyChildren]
  generalize d.bodyChildren = cs
  induction cs generalizing d with
  | nil => rfl
  | cons c cs ih => rw [List.foldl_cons, List.foldl_cons, placeRecordPorts_reshape, ih]

@[simp] theorem shapeRects_reshape (d : Document) : shapeRects (d.reshape t) = shapeRects d := by
  unfold shapeRects
  rw [Document.reshape_bodyChildren]
  induction d.bodyChildren with
  | nil => rfl
  | cons c cs ih =>
    simp only [List.filterMap_cons, Document.reshape_getNode]
    cases d.getNode c with
    | none => simpa using ih
    | some n => simp only [Option.map_some, List.filterMap_cons, NodeData.reshape_rect]; rw [ih]

@[simp] theorem junctionsAroundShapes_reshape (d : Document) :
    junctionsAroundShapes (d.reshape t) = junctionsAroundShapes d := by simp [junctionsAroundShapes]

@[simp] theorem junctionsFromTerminalPort_reshape (d : Document) (p : TerminalPort) (os : List Point) :
    junctionsFromTerminalPort (d.reshape t) p os = junctionsFromTerminalPort d p os := by
  simp [junctionsFromTerminalPort]

@[simp] theorem edgePorts_reshape (d : Document) (e : EdgeData) : edgePorts (d.reshape t) e = edgePorts d e := by
  unfold edgePorts
  rw [Document.reshape_getNode, Document.reshape_getNode]
  cases d.getNode e.sourceId <;> cases d.getNode e.targetId <;> rfl

theorem edgePorts_reshape' (d : Document) : edgePorts (d.reshape t) = edgePorts d :=
  funext (edgePorts_reshape t d)

@[simp] theorem buildRouteGraph_reshape (d : Document) (g : RouteGraph) :
    buildRouteGraph (d.reshape t) g = buildRouteGraph d g := by
  simp [buildRouteGraph, crossingJunctions, removeOverlapped, connectNearest, collisionRects, edgePorts_reshape']

@[simp] theorem findShortestEdgesPath_reshape (q : Queue) (d : Document) (g : RouteGraph) (e : EdgeData) :
    findShortestEdgesPath q (d.reshape t) g e = findShortestEdgesPath q d g e := by
  unfold findShortestEdgesPath
  rw [Document.reshape_getNode, Document.reshape_getNode]
  cases d.getNode e.sourceId <;> cases d.getNode e.targetId <;> rfl

@[simp] theorem collectPaths_reshape (q : Queue) (d : Document) (g : RouteGraph) : ∀ es : List EdgeData,
    collectPaths q (d.reshape t) g es = collectPaths q d g es
  | [] => rfl
  | e :: es => by
    rw [collectPaths, collectPaths, findShortestEdgesPath_reshape, collectPaths_reshape q d g es]

theorem drawEdgePath_reshape (q : Queue) (d : Document) (g : RouteGraph) :
    drawEdgePath q (d.reshape t) g = (drawEdgePath q d g).map fun r => (r.1.reshape t, r.2) := by
  unfold drawEdgePath
  rw [buildRouteGraph_reshape]
  cases buildRouteGraph d g with
  | error e => rfl
  | ok g =>
    simp only [collectPaths_reshape, Document.reshape_edges]
    cases collectPaths q d g d.edges with
    | error e => rfl
    | ok ps =>
      simp only
      cases assignPaths d.edges ps with
      | error e => rfl
      | ok es => rfl

end

/-! ## Modules of the same shape -/

theorem Document.reshape_length {t : FieldShape → FieldShape} {d d' : Document} (h : d.reshape t = d'.reshape t) :
    d.nodes.length = d'.nodes.length := by
  have := congrArg (fun x => x.nodes.length) h
  simpa [Document.reshape] using this

theorem createField_reshape {t : FieldShape → FieldShape} {d d' : Document} (h : d.reshape t = d'.reshape t)
    {f f' : FieldShape} (hf : t f = t f') :
    (d.createField f).1.reshape t = (d'.createField f').1.reshape t ∧ (d.createField f).2 = (d'.createField f').2 := by
  refine ⟨?_, Document.reshape_length h⟩
  cases d; cases d'
  simp only [Document.reshape, Document.mk.injEq] at h
  obtain ⟨h1, rfl, rfl⟩ := h
  simp [Document.createField, Document.reshape, h1, NodeData.reshape, NodeData.new, ShapeKind.reshape, hf]

theorem createRecord_reshape {t : FieldShape → FieldShape} {d d' : Document} (h : d.reshape t = d'.reshape t)
    (r : RecordShape) :
    (d.createRecord r).1.reshape t = (d'.createRecord r).1.reshape t ∧ (d.createRecord r).2 = (d'.createRecord r).2 := by
  refine ⟨?_, Document.reshape_length h⟩
  cases d; cases d'
  simp only [Document.reshape, Document.mk.injEq] at h
  obtain ⟨h1, rfl, rfl⟩ := h
  simp [Document.createRecord, Document.reshape, h1]

theorem modifyNode_reshape {t : FieldShape → FieldShape} {d d' : Document} (h : d.reshape t = d'.reshape t)
    (i : NodeId) {f : NodeData → NodeData} (hf : ∀ n, f (n.reshape t) = (f n).reshape t) :
    (d.modifyNode i f).reshape t = (d'.modifyNode i f).reshape t := by
  rw [← Document.reshape_modifyNode t d i hf, ← Document.reshape_modifyNode t d' i hf, h]

/-- The bindings of `paths` under the new names. -/
def renamePaths (f : Str → Str) (g : Str → Str → Str) (paths : NodePaths) : NodePaths :=
  paths.map fun b => (Spec.renamePath f g b.1, b.2)

theorem renamePath_injective {f : Str → Str} {g : Str → Str → Str} (hf : Function.Injective f)
    (hg : ∀ e, Function.Injective (g e)) : Function.Injective (Spec.renamePath f g) := by
  intro a b h
  cases a <;> cases b <;> simp only [Spec.renamePath, EntityPath.entity.injEq, EntityPath.field.injEq, reduceCtorEq] at h
  · rw [hf h]
  · obtain ⟨h1, h2⟩ := h
    have := hf h1
    subst this
    rw [hg _ h2]

theorem renamePaths_get {f : Str → Str} {g : Str → Str → Str} (hr : Function.Injective (Spec.renamePath f g))
    (p : EntityPath) : ∀ paths : NodePaths,
    NodePaths.get (renamePaths f g paths) (Spec.renamePath f g p) = NodePaths.get paths p
  | [] => rfl
  | (k, v) :: paths => by
    have ih := renamePaths_get hr p paths
    simp only [NodePaths.get, renamePaths, List.map_cons, List.lookup_cons] at ih ⊢
    have : (Spec.renamePath f g p == Spec.renamePath f g k) = (p == k) := by
      rw [Bool.eq_iff_iff, beq_iff_eq, beq_iff_eq]
      exact hr.eq_iff
    rw [this, ih]

/-- `t` does not tell the columns `a` and `b` apart. -/
def Alike (t : FieldShape → FieldShape) (a b : EntityField) : Prop := t (fieldShape a) = t (fieldShape b)

theorem addFields_reshape {t : FieldShape → FieldShape} {f : Str → Str} {g : Str → Str → Str} (e : Str) :
    ∀ {fs fs' : List EntityField}, List.Forall₂ (fun a b => b.name = g e a.name ∧ Alike t a b) fs fs' →
    ∀ {d d' : Document} {paths : NodePaths}, d.reshape t = d'.reshape t →
    (addFields e fs d paths).1.reshape t = (addFields (f e) fs' d' (renamePaths f g paths)).1.reshape t ∧
    renamePaths f g (addFields e fs d paths).2.1 = (addFields (f e) fs' d' (renamePaths f g paths)).2.1 ∧
    (addFields e fs d paths).2.2 = (addFields (f e) fs' d' (renamePaths f g paths)).2.2 := by
  intro fs fs' hfs
  induction hfs with
  | nil => intro d d' paths h; exact ⟨h, rfl, rfl⟩
  | @cons a b fs fs' hab _ ih =>
    intro d d' paths h
    obtain ⟨h1, h2⟩ := createField_reshape h hab.2
    obtain ⟨i1, i2, i3⟩ := ih (paths := paths.insert (.field e a.name) (d.createField (fieldShape a)).2) h1
    have hp : renamePaths f g (paths.insert (.field e a.name) (d.createField (fieldShape a)).2) =
        (renamePaths f g paths).insert (.field (f e) b.name) (d'.createField (fieldShape b)).2 := by
      rw [← h2, hab.1]; rfl
    rw [hp] at i1 i2 i3
    simp only [addFields]
    exact ⟨i1, i2, by rw [i3, h2]⟩

theorem foldl_appendChild_reshape (t : FieldShape → FieldShape) : ∀ (ids : List NodeId) (n : NodeData),
    ids.foldl NodeData.appendChild (n.reshape t) = (ids.foldl NodeData.appendChild n).reshape t
  | [], _ => rfl
  | i :: ids, n => by
    rw [List.foldl_cons, List.foldl_cons]
    exact foldl_appendChild_reshape t ids (n.appendChild i)

theorem addDefinition_reshape {t : FieldShape → FieldShape} {f : Str → Str} {g : Str → Str → Str}
    {a b : EntityDefinition} (hn : b.name = f a.name) (hh : t (headerShape a) = t (headerShape b))
    (hfs : List.Forall₂ (fun x y => y.name = g a.name x.name ∧ Alike t x y) a.fields b.fields)
    {d d' : Document} {paths : NodePaths} (h : d.reshape t = d'.reshape t) :
    (addDefinition a d paths).1.reshape t = (addDefinition b d' (renamePaths f g paths)).1.reshape t ∧
    renamePaths f g (addDefinition a d paths).2 = (addDefinition b d' (renamePaths f g paths)).2 := by
  obtain ⟨h1, h2⟩ := createField_reshape h hh
  obtain ⟨i1, i2, i3⟩ := addFields_reshape (f := f) (g := g) a.name hfs (paths := paths) h1
  obtain ⟨j1, j2⟩ := createRecord_reshape i1 recordShape
  rw [← hn] at i1 i2 i3 j1 j2
  simp only [addDefinition]
  refine ⟨?_, ?_⟩
  · rw [← i3, ← h2, ← j2]
    have k := modifyNode_reshape j1 ((addFields a.name a.fields (d.createField (headerShape a)).1 paths).1.createRecord
      recordShape).2 (f := fun n => (addFields a.name a.fields (d.createField (headerShape a)).1 paths).2.2.foldl
        NodeData.appendChild (n.appendChild (d.createField (headerShape a)).2))
      (fun n => foldl_appendChild_reshape t _ (n.appendChild _))
    have hb := congrArg Document.bodyId k
    rw [Document.reshape_bodyId, Document.reshape_bodyId] at hb
    rw [← hb]
    exact modifyNode_reshape k _ (fun _ => rfl)
  · rw [← i2, ← j2, hn]; rfl

theorem addRelation_reshape {t : FieldShape → FieldShape} {f : Str → Str} {g : Str → Str → Str}
    (hr : Function.Injective (Spec.renamePath f g)) (r : EntityRelation)
    {d d' : Document} {paths : NodePaths} (h : d.reshape t = d'.reshape t) :
    (addRelation r d paths).reshape t =
      (addRelation ⟨Spec.renamePath f g r.startPath, Spec.renamePath f g r.endPath⟩ d' (renamePaths f g paths)).reshape t := by
  unfold addRelation
  simp only [renamePaths_get hr]
  cases NodePaths.get paths r.startPath with
  | none => exact h
  | some s =>
    cases NodePaths.get paths r.endPath with
    | none => exact h
    | some e =>
      cases d; cases d'
      simp only [Document.reshape, Document.mk.injEq] at h
      obtain ⟨h1, rfl, rfl⟩ := h
      simp [Document.addEdge, Document.reshape, h1]

theorem forall₂_imp {α β : Type} {R S : α → β → Prop} (h : ∀ a b, R a b → S a b) {xs : List α} {ys : List β}
    (hxy : List.Forall₂ R xs ys) : List.Forall₂ S xs ys := by
  induction hxy with
  | nil => exact .nil
  | cons hab _ ih => exact .cons (h _ _ hab) ih

theorem foldl_addEntryMir_reshape {t : FieldShape → FieldShape} {f : Str → Str} {g : Str → Str → Str}
    (hr : Function.Injective (Spec.renamePath f g)) {R : EntityField → EntityField → Prop}
    (hh : ∀ a b, t (headerShape a) = t (headerShape b)) (hR : ∀ x y, R x y → Alike t x y) :
    ∀ {es es' : List ModuleEntry}, List.Forall₂ (Spec.Renamed f g R) es es' →
    ∀ {d d' : Document} {paths : NodePaths}, d.reshape t = d'.reshape t →
    (es.foldl addEntryMir (d, paths)).1.reshape t =
      (es'.foldl addEntryMir (d', renamePaths f g paths)).1.reshape t := by
  intro es es' hes
  induction hes with
  | nil => intro d d' paths h; exact h
  | cons he _ ih =>
    intro d d' paths h
    rw [List.foldl_cons, List.foldl_cons]
    cases he with
    | table a b name columns =>
      obtain ⟨h1, h2⟩ := addDefinition_reshape (t := t) (paths := paths) name (hh a b)
        (forall₂_imp (fun x y hxy => ⟨hxy.1, hR x y hxy.2⟩) columns) h
      have := ih (paths := (addDefinition a d paths).2) h1
      rw [h2] at this
      exact this
    | relation r => exact ih (addRelation_reshape hr r h)

theorem intoMir_reshape {t : FieldShape → FieldShape} {f : Str → Str} {g : Str → Str → Str}
    (hr : Function.Injective (Spec.renamePath f g)) {R : EntityField → EntityField → Prop}
    (hh : ∀ a b, t (headerShape a) = t (headerShape b)) (hR : ∀ x y, R x y → Alike t x y) {a b : Module}
    (h : List.Forall₂ (Spec.Renamed f g R) a.entries b.entries) :
    a.intoMir.reshape t = b.intoMir.reshape t :=
  foldl_addEntryMir_reshape hr hh hR h (paths := []) rfl

/-- The laid out documents of two modules that differ only in what `t` forgets. -/
theorem layout_reshape {t : FieldShape → FieldShape} {a b : Document} (h : a.reshape t = b.reshape t) (q : Queue) :
    (placeNodes a).2 = (placeNodes b).2 ∧
    (drawEdgePath q (placeTerminalPorts (placeNodes a).1) RouteGraph.new).map (fun r => (r.1.reshape t, r.2)) =
      (drawEdgePath q (placeTerminalPorts (placeNodes b).1) RouteGraph.new).map (fun r => (r.1.reshape t, r.2)) := by
  have h1 := placeNodes_reshape t a
  rw [h, placeNodes_reshape] at h1
  obtain ⟨h1, h2⟩ := Prod.mk.inj h1
  refine ⟨h2.symm, ?_⟩
  rw [← drawEdgePath_reshape, ← drawEdgePath_reshape, ← placeTerminalPorts_reshape, ← placeTerminalPorts_reshape, h1]

/-! ## Rendering -/

/-- The field shape without the text of its title. -/
def blankTitle (f : FieldShape) : FieldShape := { f with title := { f.title with text := [] } }

open Spec

theorem withoutTextsAll_append : ∀ xs ys : List Element,
    withoutTextsAll (xs ++ ys) = withoutTextsAll xs ++ withoutTextsAll ys
  | [], _ => rfl
  | x :: xs, ys => by
    rw [List.cons_append, withoutTextsAll, withoutTextsAll, withoutTextsAll_append xs ys, List.cons_append]

theorem drawField_blankTitle (c : Str) (i : Nat) (f : FieldShape) (r : Rect) :
    withoutTextsAll (drawField c i (blankTitle f) r) = withoutTextsAll (drawField c i f r) := by
  unfold drawField
  simp only [withoutTextsAll_append]
  rfl

theorem clipPaths_reshape (t : FieldShape → FieldShape) (d : Document) : ∀ cs : List (NodeId × Nat),
    clipPaths (d.reshape t) cs = clipPaths d cs
  | [] => rfl
  | c :: cs => by
    rw [clipPaths, clipPaths, clipPaths_reshape t d cs, Document.reshape_getNode]
    cases d.getNode c.1 with
    | none => rfl
    | some n => cases hk : n.kind <;> simp [ShapeKind.reshape, hk]

theorem drawFields_blankTitle (d : Document) (c : Str) : ∀ fs : List (NodeId × Nat),
    (drawFields (d.reshape blankTitle) c fs).map withoutTextsAll = (drawFields d c fs).map withoutTextsAll
  | [] => rfl
  | p :: fs => by
    have ih := drawFields_blankTitle d c fs
    rw [drawFields, drawFields, Document.reshape_getNode]
    cases d.getNode p.1 with
    | none => exact ih
    | some n =>
      cases hk : n.kind <;> simp only [Option.map_some, NodeData.reshape_kind, hk, ShapeKind.reshape]
      · exact ih
      · exact ih
      · rw [NodeData.reshape_rect]
        cases n.rect with
        | none => rfl
        | some r =>
          revert ih
          simp only
          cases drawFields (d.reshape blankTitle) c fs <;> cases drawFields d c fs <;>
            simp [Except.map, withoutTextsAll_append, drawField_blankTitle]

theorem drawRecords_blankTitle (d : Document) : ∀ cs : List (NodeId × Nat),
    (drawRecords (d.reshape blankTitle) cs).map withoutTextsAll = (drawRecords d cs).map withoutTextsAll
  | [] => rfl
  | p :: cs => by
    have ih := drawRecords_blankTitle d cs
    rw [drawRecords, drawRecords, Document.reshape_getNode]
    cases d.getNode p.1 with
    | none => exact ih
    | some n =>
      cases hk : n.kind <;>
        simp only [Option.map_some, NodeData.reshape_kind, hk, ShapeKind.reshape, NodeData.reshape_origin,
          NodeData.reshape_size, NodeData.reshape_children]
      · exact ih
      · have hf := drawFields_blankTitle d (clipPathId p.2) n.children.zipIdx
        cases n.origin with
        | none => rfl
        | some o =>
          cases n.size with
          | none => rfl
          | some s =>
            revert ih hf
            simp only
            cases drawFields (d.reshape blankTitle) (clipPathId p.2) n.children.zipIdx <;>
              cases drawFields d (clipPathId p.2) n.children.zipIdx <;>
              cases drawRecords (d.reshape blankTitle) cs <;> cases drawRecords d cs <;>
              simp +contextual [Except.map, withoutTextsAll_append, withoutTextsAll]
      · exact ih

theorem render_blankTitle (v : Option Rect) (d : Document) :
    (render v (d.reshape blankTitle)).map withoutTexts = (render v d).map withoutTexts := by
  unfold render
  rw [Document.reshape_bodyChildren, clipPaths_reshape, Document.reshape_edges]
  have h := drawRecords_blankTitle d d.bodyChildren.zipIdx
  revert h
  cases clipPaths d d.bodyChildren.zipIdx with
  | error e => intro _; rfl
  | ok clips =>
    simp only
    cases drawRecords (d.reshape blankTitle) d.bodyChildren.zipIdx <;> cases drawRecords d d.bodyChildren.zipIdx <;>
      cases drawEdges d.edges <;> simp [Except.map, withoutTextsAll_append, withoutTextsAll, withoutTexts]

end Seiren
