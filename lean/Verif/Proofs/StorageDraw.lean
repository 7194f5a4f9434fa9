import Verif.Proofs.StorageRoute
/-!
# The drawing made with petgraph's storage is that of the other models
-/

namespace Seiren
open Spec
open Pg (Linked endIndex EdgeRef)

/-! ## Layout keeps the number of nodes, the edges and the body -/

structure Framed (d d' : Document) : Prop where
  nodes : d'.nodes.length = d.nodes.length
  edges : d'.edges = d.edges
  body : d'.bodyId = d.bodyId

theorem Framed.refl (d : Document) : Framed d d := ⟨rfl, rfl, rfl⟩
theorem Framed.trans {a b c : Document} (h : Framed a b) (h' : Framed b c) : Framed a c :=
  ⟨h'.1.trans h.1, h'.2.trans h.2, h'.3.trans h.3⟩

theorem framed_modifyNode (d : Document) (i : NodeId) (f : NodeData → NodeData) : Framed d (d.modifyNode i f) :=
  ⟨by simp [Document.modifyNode], rfl, rfl⟩

theorem framed_foldl {α : Type} (f : Document → α → Document) (hf : ∀ d a, Framed d (f d a)) (l : List α) (d : Document) :
    Framed d (l.foldl f d) := by
  induction l generalizing d with
  | nil => exact .refl d
  | cons a l ih => exact (hf d a).trans (ih _)

section
variable (rnd : Rat → Rat)

theorem framed_placeFieldsR (x baseY : Rat) (d : Document) (fs : List (NodeId × Nat)) : Framed d (placeFieldsR rnd x baseY d fs) := by
  unfold placeFieldsR
  refine framed_foldl _ (fun d a => ?_) fs d
  obtain ⟨i, k⟩ := a
  simp only
  split
  · exact .refl d
  · split
    · exact framed_modifyNode _ _ _
    · exact .refl d

theorem framed_placeRecordR (st : PlaceState) (c : NodeId × Nat) : Framed st.doc (placeRecordR rnd st c).doc := by
  obtain ⟨i, k⟩ := c
  unfold placeRecordR
  simp only
  have key : ∀ st : PlaceState, Framed st.doc (match st.doc.getNode i with
      | none => st
      | some record =>
        match record.kind with
        | .record _ =>
          let nFields : Rat := rnd record.children.length
          let x := rnd (ORIGIN.x + rnd (rnd (RECORD_WIDTH + RECORD_SPACE) * rnd (k % GRID_N_COLUMNS : Nat)))
          let recordHeight := rnd (LINE_HEIGHT * nFields)
          let maxHeight := max recordHeight st.maxHeight
          let doc := st.doc.modifyNode i fun n => { n with origin := some ⟨x, st.baseY⟩, size := some ⟨RECORD_WIDTH, recordHeight⟩ }
          let doc := placeFieldsR rnd x st.baseY doc record.children.zipIdx
          ({ doc := doc, baseY := st.baseY, maxHeight := maxHeight } : PlaceState)
        | _ => st).doc := by
    intro st
    split
    · exact .refl _
    · split
      · exact (framed_modifyNode _ _ _).trans (framed_placeFieldsR rnd _ _ _ _)
      · exact .refl _
  refine Framed.trans (b := (if k > 0 ∧ k % GRID_N_COLUMNS = 0 then
    ({ st with baseY := rnd (st.baseY + rnd (st.maxHeight + RECORD_SPACE)), maxHeight := f32Min } : PlaceState) else st).doc) ?_ (key _)
  split <;> exact .refl _

theorem framed_placeNodesR (d : Document) : Framed d (placeNodesR rnd d).1 := by
  unfold placeNodesR
  simp only
  have : ∀ (l : List (NodeId × Nat)) (st : PlaceState), Framed st.doc (l.foldl (placeRecordR rnd) st).doc := by
    intro l
    induction l with
    | nil => intro st; exact .refl _
    | cons a l ih => intro st; exact (framed_placeRecordR rnd st a).trans (ih _)
  exact this _ { doc := d, baseY := ORIGIN.y, maxHeight := f32Min }

theorem framed_placeFieldPortsR (c : Nat) (d : Document) (fs : List (NodeId × Nat)) : Framed d (placeFieldPortsR rnd c d fs) := by
  unfold placeFieldPortsR
  refine framed_foldl _ (fun d a => ?_) _ _
  obtain ⟨j, k⟩ := a
  simp only
  split
  · exact .refl d
  · split
    · exact .refl d
    · exact framed_modifyNode _ _ _

theorem framed_placeTerminalPortsR (d : Document) : Framed d (placeTerminalPortsR rnd d) := by
  unfold placeTerminalPortsR
  refine framed_foldl _ (fun d i => ?_) _ d
  unfold placeRecordPortsR
  split
  · exact .refl d
  · split
    · exact .refl d
    · exact (framed_modifyNode _ _ _).trans (framed_placeFieldPortsR rnd _ _ _)

end

theorem zipWith_weights {N : Type} (ns : List (Pg.Node N)) (ws : List N) (h : ws.length = ns.length) :
    (ns.zipWith (fun n w => { n with weight := w }) ws).map Pg.Node.weight = ws ∧
    (ns.zipWith (fun n w => { n with weight := w }) ws).map Pg.Node.next = ns.map Pg.Node.next := by
  induction ns generalizing ws with
  | nil => rw [List.length_eq_zero_iff.mp h]; exact ⟨rfl, rfl⟩
  | cons n ns ih =>
    cases ws with
    | nil => cases h
    | cons w ws =>
      have := ih ws (by simpa using h)
      simp [this.1, this.2]

theorem zipWith_edges {E : Type} (es : List (Pg.Edge E)) (ws : List E) (h : ws.length = es.length) :
    (es.zipWith (fun e w => { e with weight := w }) ws).map Pg.Edge.weight = ws ∧
    (es.zipWith (fun e w => { e with weight := w }) ws).map (fun e => (e.next, e.node)) = es.map (fun e => (e.next, e.node)) := by
  induction es generalizing ws with
  | nil => rw [List.length_eq_zero_iff.mp h]; exact ⟨rfl, rfl⟩
  | cons n ns ih =>
    cases ws with
    | nil => cases h
    | cons w ws =>
      have := ih ws (by simpa using h)
      simp only [List.zipWith_cons_cons, List.map_cons, this.1, this.2, and_self]

theorem updateNodes_spec {p : PgDocument} (h : p.Good) (f : Document → Document) (hf : Framed p.plain (f p.plain)) :
    (p.updateNodes f).Good ∧ (p.updateNodes f).plain = f p.plain := by
  have hl : (f p.plain).nodes.length = p.graph.nodes.length := by rw [hf.nodes, plain_nodes_length]
  obtain ⟨h1, h2⟩ := zipWith_weights p.graph.nodes (f p.plain).nodes hl
  refine ⟨⟨Pg.nodes_next (g := p.graph) rfl h2 h.linked, h.ends⟩, ?_⟩
  have e1 : (f p.plain).edges = p.graph.edgeWeights := hf.edges
  have e2 : (f p.plain).bodyId = p.bodyId := hf.body
  have ext : ∀ x y : Document, x.nodes = y.nodes → x.edges = y.edges → x.bodyId = y.bodyId → x = y := by
    rintro ⟨⟩ ⟨⟩ h h' h''
    simp_all
  exact ext _ _ h1 e1.symm e2.symm

theorem setEdges_spec {p : PgDocument} (ws : List EdgeData) (hl : ws.length = p.graph.edges.length) :
    (p.setEdges ws).plain = { p.plain with edges := ws } := by
  have := (zipWith_edges p.graph.edges ws hl).1
  unfold PgDocument.plain PgDocument.setEdges Pg.Graph.edgeWeights
  simp only
  rw [this]
  rfl

/-! ## The search -/

/-- The cost of an edge of the list model. -/
def costOf (co : Coordinates) (g : RouteGraph) (a b : RouteNodeId) : Nat :=
  match g.getNode a, g.getNode b with
  | some n, some m => co.cost n m
  | _, _ => 0

theorem costOf_exact : costOf Coordinates.exact = edgeCost := rfl
theorem costOf_rounded (rnd sq : Rat → Rat) : costOf (Coordinates.rounded rnd sq) = edgeCostR rnd sq := rfl

section
variable (co : Coordinates) (w : Nat → Nat) (q : Queue)

theorem edgeCostPg_eq (g : PgRouteGraph) (e : EdgeRef) : edgeCostPg co g e = costOf co g.plain e.source e.target := by
  unfold edgeCostPg costOf
  rw [getNode_eq, getNode_eq]
  rfl

theorem astarRelaxPg_eq (g : PgRouteGraph) (node s : Nat) (l : List EdgeRef) (hl : ∀ e ∈ l, e.source = node) (st : AstarState) :
    astarRelaxPg w q (edgeCostPg co g) node s l st = astarRelaxW w q (costOf co g.plain) node s (l.map EdgeRef.target) st := by
  induction l generalizing st with
  | nil => rfl
  | cons e l ih =>
    have hs := hl e List.mem_cons_self
    have ih := ih fun x hx => hl x (List.mem_cons_of_mem _ hx)
    rw [List.map_cons]
    unfold astarRelaxPg astarRelaxW
    rw [edgeCostPg_eq, hs]
    simp only [ih]
    rfl

theorem astarLoopPg_eq {g : PgRouteGraph} (h : g.Good) (goal fuel : Nat) (st : AstarState) :
    astarLoopPg w q g (edgeCostPg co g) goal fuel st = astarLoopW w q g.plain (costOf co g.plain) goal fuel st := by
  induction fuel generalizing st with
  | zero => rfl
  | succ fuel ih =>
    unfold astarLoopPg astarLoopW
    simp only [ih, routePlain_nodes]
    have : ∀ node s st, astarRelaxPg w q (edgeCostPg co g) node s (g.graph.edgesOf node) st =
        astarRelaxW w q (costOf co g.plain) node s (g.plain.neighbors node) st := by
      intro node s st
      rw [astarRelaxPg_eq co w q g node s _ (h.edgesOf node).2 st, (h.edgesOf node).1]
    simp only [this]
    rfl

theorem computeShortestPathPg_eq {g : PgRouteGraph} (h : g.Good) (s t : Nat) :
    computeShortestPathPg co w q g s t = computeShortestPathM w (costOf co) q g.plain s t := by
  unfold computeShortestPathPg computeShortestPathM astarW
  rw [astarLoopPg_eq co w q h, routePlain_edges]
  rfl

theorem bestPathPg_eq {g : PgRouteGraph} (h : g.Good) (prs : List (TerminalPort × TerminalPort)) (c : Nat) (path : Option (List RouteNodeId)) :
    bestPathPg co w q g prs c path = bestPathM w (costOf co) q g.plain prs c path := by
  induction prs generalizing c path with
  | nil => rfl
  | cons pr prs ih =>
    obtain ⟨a, b⟩ := pr
    unfold bestPathPg bestPathM
    simp only [ih, computeShortestPathPg_eq co w q h]
    rfl

theorem pathLocationsPg_eq (g : PgRouteGraph) (ids : List RouteNodeId) : pathLocationsPg g ids = pathLocations g.plain ids := by
  induction ids with
  | nil => rfl
  | cons i is ih =>
    unfold pathLocationsPg pathLocations
    rw [getNode_eq, ih]
    rfl

theorem findShortestEdgesPathPg_eq {p : PgDocument} (hp : p.Good) {g : PgRouteGraph} (h : g.Good) {i : Nat} {e : EdgeData}
    (he : p.plain.edges[i]? = some e) :
    findShortestEdgesPathPg co w q p g i = findShortestEdgesPathM w (costOf co) q p.plain g.plain e := by
  have hends : p.edgeEndpoints i = some (e.sourceId, e.targetId) := by
    have h1 := congrArg (·[i]?) hp.ends
    simp only [Pg.Graph.hist, List.getElem?_map] at h1
    have h2 : p.graph.edgeWeights[i]? = some e := he
    rw [h2] at h1
    exact h1
  unfold findShortestEdgesPathPg findShortestEdgesPathM
  rw [hends]
  simp only [Pg.nodeWeight_eq, bestPathPg_eq co w q h, pathLocationsPg_eq]
  rfl

theorem collectPathsPg_eq {p : PgDocument} (hp : p.Good) {g : PgRouteGraph} (h : g.Good) (is : List Nat) (es : List EdgeData)
    (he : is.map (fun i => p.plain.edges[i]?) = es.map some) :
    collectPathsPg co w q p g is = collectPathsM w (costOf co) q p.plain g.plain es := by
  induction is generalizing es with
  | nil =>
    cases es with
    | nil => rfl
    | cons e es => cases he
  | cons i is ih =>
    cases es with
    | nil => cases he
    | cons e es =>
      simp only [List.map_cons, List.cons.injEq] at he
      unfold collectPathsPg collectPathsM
      rw [findShortestEdgesPathPg_eq co w q hp h he.1, ih es he.2]
      rfl

theorem range_getElem {α : Type} (l : List α) : (List.range l.length).map (fun i => l[i]?) = l.map some := by
  refine List.ext_getElem? fun k => ?_
  rw [List.getElem?_map, List.getElem?_map]
  by_cases hk : k < l.length
  · rw [List.getElem?_range hk, List.getElem?_eq_getElem hk]
    simp [hk]
  · rw [List.getElem?_eq_none (by simpa using hk), List.getElem?_eq_none (by simpa using hk)]
    rfl

theorem assignPaths_length {es es' : List EdgeData} {ps : List (List Point)} (h : assignPaths es ps = .ok es') : es'.length = es.length := by
  induction es generalizing ps es' with
  | nil => injection h with h; rw [← h]
  | cons e es ih =>
    cases ps with
    | nil => cases h
    | cons p ps =>
      unfold assignPaths at h
      split at h
      · cases h
      · rename_i es1 h1
        injection h with h
        rw [← h, List.length_cons, ih h1, List.length_cons]

theorem drawEdgePathPg_eq (hco : co.Local) {p : PgDocument} (hp : p.Good) {g' : RouteGraph} (hb : buildOf co p.plain .new = .ok g') (hf : g'.Fits) :
    match drawEdgePathM w (buildOf co) (costOf co) q p.plain .new with
    | .error e => drawEdgePathPg co w q p .new = .error (.panic e)
    | .ok (d', g') => ∃ p' pg, drawEdgePathPg co w q p .new = .ok (p', pg) ∧ p'.plain = d' ∧ pg.Good ∧ pg.plain = g' := by
  obtain ⟨pg, h1, h2, h3⟩ := buildRouteGraphPg_spec hco p routeGood_new (g' := g') hb hf
  unfold drawEdgePathM drawEdgePathPg
  rw [hb, h1]
  simp only
  have hc : collectPathsPg co w q p pg p.edgeIds = collectPathsM w (costOf co) q p.plain g' p.plain.edges := by
    rw [← h3]
    refine collectPathsPg_eq co w q hp h2 _ _ ?_
    rw [← range_getElem, plain_edges_length]
    rfl
  rw [hc]
  cases collectPathsM w (costOf co) q p.plain g' p.plain.edges with
  | error e => rfl
  | ok paths =>
    simp only
    rw [show p.graph.edgeWeights = p.plain.edges from rfl]
    cases ha : assignPaths p.plain.edges paths with
    | error e => rfl
    | ok es =>
      refine ⟨_, _, rfl, setEdges_spec es ?_, h2, h3⟩
      rw [assignPaths_length ha, plain_edges_length]

end

/-! ## The neighbours are nodes of the graph -/

theorem toEdges_local {a : RouteNodeId} {s : Nearest} {P : RouteNodeId → Prop}
    (h : ∀ d ∈ [s.left, s.right, s.up, s.down], ∀ x, d = some x → P x.1) : ∀ e ∈ s.toEdges a, e.1 = a ∧ P e.2 := by
  intro e he
  unfold Nearest.toEdges at he
  obtain ⟨d, hd, he⟩ := List.mem_filterMap.mp he
  cases hx : d with
  | none => rw [hx] at he; cases he
  | some x =>
    rw [hx] at he
    injection he with he
    rw [← he]
    exact ⟨rfl, h d hd x hx⟩

/-- All neighbours found satisfy `P`. -/
def Nearest.Only (P : RouteNodeId → Prop) (s : Nearest) : Prop := ∀ d ∈ [s.left, s.right, s.up, s.down], ∀ x, d = some x → P x.1

theorem takeCandidate_only {P : RouteNodeId → Prop} {cur : Option (RouteNodeId × RouteNodeData)} (hc : ∀ x, cur = some x → P x.1)
    (f : RouteNodeData → Bool) (b : Bool) {c : RouteNodeId × RouteNodeData} (h : P c.1) : ∀ x, takeCandidate cur f b c = some x → P x.1 := by
  intro x hx
  unfold takeCandidate at hx
  split at hx
  · injection hx with hx; rw [← hx]; exact h
  · rename_i y
    split at hx
    · injection hx with hx; rw [← hx]; exact h
    · injection hx with hx; rw [← hx]; exact hc y rfl

theorem only_iff (P : RouteNodeId → Prop) (s : Nearest) : s.Only P ↔ (∀ x, s.left = some x → P x.1) ∧ (∀ x, s.right = some x → P x.1) ∧
    (∀ x, s.up = some x → P x.1) ∧ (∀ x, s.down = some x → P x.1) := by
  simp [Nearest.Only]

theorem nearestStepR_only (rnd : Rat → Rat) {P : RouteNodeId → Prop} (rects : List Rect) (n : RouteNodeData) {s : Nearest} (hs : s.Only P)
    (b : RouteNodeId × RouteNodeData) (hb : P b.1) : (nearestStepR rnd rects n s b).Only P := by
  rw [only_iff] at hs ⊢
  obtain ⟨h1, h2, h3, h4⟩ := hs
  unfold nearestStepR
  simp only
  repeat' split
  all_goals
    try dsimp only
    first
    | exact ⟨h1, h2, h3, h4⟩
    | exact ⟨h1, h2, takeCandidate_only h3 _ _ hb, h4⟩
    | exact ⟨h1, h2, h3, takeCandidate_only h4 _ _ hb⟩
    | exact ⟨takeCandidate_only h1 _ _ hb, h2, h3, h4⟩
    | exact ⟨h1, takeCandidate_only h2 _ _ hb, h3, h4⟩

theorem local_rounded (rnd sq : Rat → Rat) : (Coordinates.rounded rnd sq).Local := by
  intro doc ns n a
  have key : ∀ (l : List (RouteNodeId × RouteNodeData)) (s : Nearest), (∀ x ∈ l, x ∈ ns) → s.Only (· ∈ ns.map Prod.fst) →
      (l.foldl (nearestStepR rnd (collisionRectsR rnd doc) n) s).Only (· ∈ ns.map Prod.fst) := by
    intro l
    induction l with
    | nil => intro s _ hs; exact hs
    | cons b l ih =>
      intro s hl hs
      exact ih _ (fun x hx => hl x (List.mem_cons_of_mem _ hx))
        (nearestStepR_only rnd _ n hs b (List.mem_map_of_mem (hl b List.mem_cons_self)))
  exact toEdges_local (key ns {} (fun _ h => h) (by rw [only_iff]; simp))

theorem local_exact : Coordinates.exact.Local := local_rounded id id

/-! ## The whole drawing -/

/-- A result without faults of the storage. -/
def noFault (r : Except RenderError Element) : Except (Pg.Fault ⊕ RenderError) Element :=
  match r with
  | .error e => .error (.inr e)
  | .ok el => .ok el

theorem drawModulePgM_eq (rnd sq : Rat → Rat) (w : Nat → Nat) (q : Queue) (m : Module) (hm : m.intoMir.Fits) {g' : RouteGraph}
    (hb : buildRouteGraphR rnd (placeTerminalPortsR rnd (placeNodesR rnd m.intoMir).1) .new = .ok g') (hf : g'.Fits) :
    drawModulePgM rnd sq w q m = noFault (drawModuleM rnd sq w q m) := by
  rcases intoMirPg_spec m with ⟨p, h1, h2, h3⟩ | ⟨_, h⟩
  swap
  · exact absurd hm h
  unfold drawModulePgM drawModuleM
  rw [h1]
  simp only
  obtain ⟨h4, h5⟩ := updateNodes_spec h2 (fun d => placeTerminalPortsR rnd (placeNodesR rnd d).1)
    ((framed_placeNodesR rnd _).trans (framed_placeTerminalPortsR rnd _))
  rw [h3] at h5 ⊢
  rw [← buildOf_rounded rnd sq, ← h5] at hb
  have := drawEdgePathPg_eq (Coordinates.rounded rnd sq) w q (local_rounded rnd sq) h4 hb hf
  rw [h5, buildOf_rounded, costOf_rounded] at this
  cases hd : drawEdgePathM w (buildRouteGraphR rnd) (edgeCostR rnd sq) q (placeTerminalPortsR rnd (placeNodesR rnd m.intoMir).1) .new with
  | error e =>
    rw [hd] at this
    simp only at this
    rw [this]
    rfl
  | ok r =>
    obtain ⟨d', g''⟩ := r
    rw [hd] at this
    obtain ⟨p', pg, h6, h7, -⟩ := this
    rw [h6]
    simp only
    rw [h7]
    cases renderR rnd (some (placeNodesR rnd m.intoMir).2) d' <;> rfl

end Seiren
