import Verif.Proofs.HashTable
import Verif.Model.HashMaps
/-! # The program with hash tables does what the program with association lists does -/

namespace Seiren

open Pg (Fault EdgeRef)
open Hb (Table Rep)

variable {hs : Hashes}

/-! ## erd.rs -/

/-- Two results that differ in the map only. -/
def SameFields (hs : Hashes) : Except Fault (PgDocument × Table EntityPath NodeId × List NodeId) → Except Fault (PgDocument × NodePaths × List NodeId) → Prop
  | .error e, .error e' => e = e'
  | .ok (d, t, ids), .ok (d', l, ids') => d = d' ∧ Rep hs.nodePaths hs.width t l ∧ ids = ids'
  | _, _ => False

theorem addFieldsHb_rep (entity : Str) : ∀ (fs : List EntityField) (doc : PgDocument) {t : Table EntityPath NodeId} {l : NodePaths},
    Rep hs.nodePaths hs.width t l → SameFields hs (addFieldsHb hs entity fs doc t) (addFieldsPg entity fs doc l)
  | [], doc, t, l, h => ⟨rfl, h, rfl⟩
  | f :: fs, doc, t, l, h => by
    unfold addFieldsHb addFieldsPg
    cases doc.createField (fieldShape f) with
    | error e => exact rfl
    | ok r =>
      obtain ⟨doc, id⟩ := r
      have := addFieldsHb_rep entity fs doc (h.insert (.field entity f.name) id)
      simp only
      change SameFields hs _ (match addFieldsPg entity fs doc ((EntityPath.field entity f.name, id) :: l) with
        | .error e => .error e
        | .ok (doc, paths, ids) => .ok (doc, paths, id :: ids))
      revert this
      generalize addFieldsPg entity fs doc ((EntityPath.field entity f.name, id) :: l) = b
      change SameFields hs (addFieldsHb hs entity fs doc (Hb.insert hs.nodePaths hs.width t (EntityPath.field entity f.name) id)) b → _
      generalize addFieldsHb hs entity fs doc (Hb.insert hs.nodePaths hs.width t (EntityPath.field entity f.name) id) = a
      intro this
      rcases a with e | ⟨d, t, ids⟩ <;> rcases b with e' | ⟨d', l, ids'⟩
      · exact this
      · exact this
      · exact this
      · obtain ⟨h1, h2, h3⟩ := this
        exact ⟨h1, h2, by rw [h3]⟩

/-- Two results that differ in the map only. -/
def SamePaths (hs : Hashes) : Except Fault (PgDocument × Table EntityPath NodeId) → Except Fault (PgDocument × NodePaths) → Prop
  | .error e, .error e' => e = e'
  | .ok (d, t), .ok (d', l) => d = d' ∧ Rep hs.nodePaths hs.width t l
  | _, _ => False

theorem addDefinitionHb_rep (d : EntityDefinition) (doc : PgDocument) {t : Table EntityPath NodeId} {l : NodePaths}
    (h : Rep hs.nodePaths hs.width t l) : SamePaths hs (addDefinitionHb hs d doc t) (addDefinitionPg d doc l) := by
  unfold addDefinitionHb addDefinitionPg
  cases doc.createField (headerShape d) with
  | error e => exact rfl
  | ok r =>
    obtain ⟨doc, headerId⟩ := r
    have := addFieldsHb_rep d.name d.fields doc h
    simp only
    revert this
    generalize addFieldsPg d.name d.fields doc l = b
    generalize addFieldsHb hs d.name d.fields doc t = a
    intro this
    rcases a with e | ⟨d1, t1, ids⟩ <;> rcases b with e' | ⟨d', l', ids'⟩
    · exact this
    · exact this.elim
    · exact this.elim
    · obtain ⟨rfl, h2, rfl⟩ := this
      simp only
      cases d1.createRecord recordShape with
      | error e => exact rfl
      | ok r => exact ⟨rfl, h2.insert _ _⟩

theorem addRelationHb_eq (r : EntityRelation) (doc : PgDocument) {t : Table EntityPath NodeId} {l : NodePaths}
    (h : Rep hs.nodePaths hs.width t l) : addRelationHb hs r doc t = addRelationPg r doc l := by
  unfold addRelationHb addRelationPg NodePaths.get
  rw [h.same, h.same]
  cases l.lookup r.startPath with
  | none => rfl
  | some s => cases l.lookup r.endPath <;> rfl

theorem addEntriesHb_eq : ∀ (es : List ModuleEntry) (doc : PgDocument) {t : Table EntityPath NodeId} {l : NodePaths},
    Rep hs.nodePaths hs.width t l → addEntriesHb hs es doc t = addEntriesPg es doc l
  | [], _, _, _, _ => rfl
  | .definition d :: es, doc, t, l, h => by
    unfold addEntriesHb addEntriesPg
    have := addDefinitionHb_rep d doc h
    revert this
    generalize addDefinitionPg d doc l = b
    generalize addDefinitionHb hs d doc t = a
    intro this
    rcases a with e | ⟨d1, t1⟩ <;> rcases b with e' | ⟨d', l'⟩
    · exact congrArg Except.error this
    · exact this.elim
    · exact this.elim
    · obtain ⟨rfl, h2⟩ := this
      exact addEntriesHb_eq es d1 h2
  | .relation r :: es, doc, t, l, h => by
    unfold addEntriesHb addEntriesPg
    rw [addRelationHb_eq r doc h]
    cases addRelationPg r doc l with
    | error e => rfl
    | ok d => exact addEntriesHb_eq es d h

theorem intoMirHb_eq (hs : Hashes) (m : Module) : m.intoMirHb hs = m.intoMirPg := by
  unfold Module.intoMirHb Module.intoMirPg
  cases PgDocument.new with
  | error e => rfl
  | ok d => exact addEntriesHb_eq m.entries d (Hb.rep_new _ _)

/-! ## The map of the ports does not matter to the rest -/

/-- With these ports. -/
def withPorts (l : List (TerminalPortId × RouteNodeId)) : Except Fault PgRouteGraph → Except Fault PgRouteGraph
  | .error e => .error e
  | .ok g => .ok ⟨g.graph, l⟩

theorem addNodeAtPg_ports (gr : Pg.Graph RouteNodeData (RouteNodeId × RouteNodeId)) (l : List (TerminalPortId × RouteNodeId)) (p : Point) (o : Option Orientation) :
    (⟨gr, l⟩ : PgRouteGraph).addNodeAt p o = match (⟨gr, []⟩ : PgRouteGraph).addNodeAt p o with
      | .error e => .error e
      | .ok (g, i) => .ok (⟨g.graph, l⟩, i) := by
  unfold PgRouteGraph.addNodeAt PgRouteGraph.indexed
  simp only
  split
  · split <;> rfl
  · split <;> rfl

theorem addJunctionsPg_ports (l : List (TerminalPortId × RouteNodeId)) : ∀ (js : List Point) (gr : Pg.Graph RouteNodeData (RouteNodeId × RouteNodeId)),
    addJunctionsPg ⟨gr, l⟩ js = withPorts l (addJunctionsPg ⟨gr, []⟩ js)
  | [], _ => rfl
  | j :: js, gr => by
    have h0 := addNodeAtPg_ports gr [] j none
    rw [addJunctionsPg, addJunctionsPg, addNodeAtPg_ports gr l j none]
    cases h : (⟨gr, []⟩ : PgRouteGraph).addNodeAt j none with
    | error e => rfl
    | ok r =>
      obtain ⟨⟨gr', l'⟩, i⟩ := r
      rw [h] at h0
      simp only [Except.ok.injEq, Prod.mk.injEq, PgRouteGraph.mk.injEq, true_and, and_true] at h0
      subst h0
      exact addJunctionsPg_ports l js gr'

theorem addEdgesPg_ports (l : List (TerminalPortId × RouteNodeId)) : ∀ (es : List (RouteNodeId × RouteNodeId)) (gr : Pg.Graph RouteNodeData (RouteNodeId × RouteNodeId)),
    addEdgesPg ⟨gr, l⟩ es = withPorts l (addEdgesPg ⟨gr, []⟩ es)
  | [], _ => rfl
  | (a, b) :: es, gr => by
    rw [addEdgesPg, addEdgesPg]
    unfold PgRouteGraph.addEdge
    simp only
    by_cases hc : ((gr.edgesOf a).any fun x => x.target == b) = true
    · rw [if_pos hc, if_pos hc]
      exact addEdgesPg_ports l es gr
    · rw [if_neg hc, if_neg hc]
      cases gr.addEdge a b (a, b) with
      | error e => rfl
      | ok r => exact addEdgesPg_ports l es r.1

theorem connectNearestPg_ports (co : Coordinates) (doc : Document) (gr : Pg.Graph RouteNodeData (RouteNodeId × RouteNodeId)) (l : List (TerminalPortId × RouteNodeId)) :
    connectNearestPg co doc ⟨gr, l⟩ = withPorts l (connectNearestPg co doc ⟨gr, []⟩) := addEdgesPg_ports l _ gr

/-! ## layout.rs -/

/-- The route graph with the table stands for the one with the list. -/
def RepGraph (hs : Hashes) (g : HbRouteGraph) (g' : PgRouteGraph) : Prop := g.graph = g'.graph ∧ Rep hs.terminalPorts hs.width g.terminalPorts g'.terminalPorts

/-- Two results that differ in the map only. -/
def SameRouteGraph (hs : Hashes) : Except Fault HbRouteGraph → Except Fault PgRouteGraph → Prop
  | .error e, .error e' => e = e'
  | .ok g, .ok g' => RepGraph hs g g'
  | _, _ => False

theorem addTerminalPortsHb_rep : ∀ (ps : List TerminalPort) {g : HbRouteGraph} {g' : PgRouteGraph}, RepGraph hs g g' →
    SameRouteGraph hs (addTerminalPortsHb hs g ps) (addTerminalPortsPg g' ps)
  | [], _, _, h => h
  | p :: ps, ⟨gr, t⟩, ⟨gr', l⟩, h => by
    obtain ⟨h1, h2⟩ := h
    simp only at h1 h2
    subst h1
    rw [addTerminalPortsHb, addTerminalPortsPg]
    unfold HbRouteGraph.addTerminalPort PgRouteGraph.addTerminalPort HbRouteGraph.bare
    rw [addNodeAtPg_ports gr l]
    simp only
    cases (⟨gr, []⟩ : PgRouteGraph).addNodeAt p.location (some p.orientation) with
    | error e => exact rfl
    | ok r => exact addTerminalPortsHb_rep ps ⟨rfl, h2.insert _ _⟩

theorem buildRouteGraphHb_rep (co : Coordinates) (doc : PgDocument) {g : HbRouteGraph} {g' : PgRouteGraph} (h : RepGraph hs g g') :
    SameRouteGraph hs (buildRouteGraphHb hs co doc g) (buildRouteGraphPg co doc g') := by
  obtain ⟨gr, t⟩ := g
  obtain ⟨gr', l⟩ := g'
  obtain ⟨h1, h2⟩ := h
  simp only at h1 h2
  subst h1
  unfold buildRouteGraphHb buildRouteGraphPg HbRouteGraph.bare
  rw [addJunctionsPg_ports l]
  simp only
  cases addJunctionsPg ⟨gr, []⟩ (co.junctions doc.plain) with
  | error e => exact rfl
  | ok b =>
    simp only [withPorts]
    have := addTerminalPortsHb_rep (hs := hs) (doc.plain.edges.flatMap (edgePorts doc.plain)) (g := ⟨b.graph, t⟩) (g' := ⟨b.graph, l⟩) ⟨rfl, h2⟩
    revert this
    generalize addTerminalPortsHb hs ⟨b.graph, t⟩ (doc.plain.edges.flatMap (edgePorts doc.plain)) = x
    generalize addTerminalPortsPg ⟨b.graph, l⟩ (doc.plain.edges.flatMap (edgePorts doc.plain)) = y
    intro this
    rcases x with e | ⟨gr1, t1⟩ <;> rcases y with e' | ⟨gr2, l2⟩
    · exact this
    · exact this.elim
    · exact this.elim
    · obtain ⟨h3, h4⟩ := this
      simp only at h3 h4
      subst h3
      simp only
      rw [connectNearestPg_ports co doc.plain gr1 l2]
      cases connectNearestPg co doc.plain ⟨gr1, []⟩ with
      | error e => exact rfl
      | ok b => exact ⟨rfl, h4⟩

/-- The state of a search with tables stands for the one with lists. -/
structure RepState (W : Nat) (sh : SearchHashes) (s : HbAstar) (s' : AstarState) : Prop where
  visitNext : s.visitNext = s'.visitNext
  scores : Rep sh.scores W s.scores s'.scores
  estimateScores : Rep sh.estimateScores W s.estimateScores s'.estimateScores
  cameFrom : Rep sh.cameFrom W s.cameFrom s'.cameFrom

variable {e : Nat} {sh : SearchHashes} (co : Coordinates) (w : Nat → Nat)

theorem astarRelaxHb_rep (q : Queue) (cost : EdgeRef → Nat) (node nodeScore : Nat) : ∀ (es : List EdgeRef) {s : HbAstar} {s' : AstarState},
    RepState (2 ^ e) sh s s' → RepState (2 ^ e) sh (astarRelaxHb w (2 ^ e) sh q cost node nodeScore es s) (astarRelaxPg w q cost node nodeScore es s')
  | [], _, _, h => h
  | edge :: es, s, s', h => by
    rw [astarRelaxHb, astarRelaxPg, h.scores.same]
    have hyes : RepState (2 ^ e) sh _ _ := astarRelaxHb_rep q cost node nodeScore es
      (s := { s with
        scores := Hb.insert sh.scores (2 ^ e) s.scores edge.target (w (nodeScore + cost edge))
        cameFrom := Hb.insert sh.cameFrom (2 ^ e) s.cameFrom edge.target node
        visitNext := q.push s.visitNext (w (w (nodeScore + cost edge) + 0), edge.target) })
      (s' := { s' with
        scores := (edge.target, w (nodeScore + cost edge)) :: s'.scores
        cameFrom := (edge.target, node) :: s'.cameFrom
        visitNext := q.push s'.visitNext (w (w (nodeScore + cost edge) + 0), edge.target) })
      ⟨by rw [h.visitNext], h.scores.insert _ _, h.estimateScores, h.cameFrom.insert _ _⟩
    have hno := astarRelaxHb_rep q cost node nodeScore es h
    cases s'.scores.lookup edge.target with
    | none => exact hyes
    | some old =>
      simp only [decide_eq_true_eq]
      by_cases hc : w (nodeScore + cost edge) < old
      · rw [if_pos hc, if_pos hc]; exact hyes
      · rw [if_neg hc, if_neg hc]; exact hno

theorem reconstructHb_eq {t : Table RouteNodeId Nat} {l : NodeMap} (h : Rep sh.cameFrom (2 ^ e) t l) : ∀ (fuel : Nat) (c : RouteNodeId),
    reconstructHb (2 ^ e) sh t fuel c = reconstruct l fuel c
  | 0, _ => rfl
  | fuel + 1, c => by
    rw [reconstructHb, reconstruct, h.same]
    cases l.lookup c with
    | none => rfl
    | some p => simp only; rw [reconstructHb_eq h fuel p]

theorem astarLoopHb_eq (q : Queue) (g : PgRouteGraph) (cost : EdgeRef → Nat) (goal : RouteNodeId) : ∀ (fuel : Nat) {s : HbAstar} {s' : AstarState},
    RepState (2 ^ e) sh s s' → astarLoopHb w (2 ^ e) sh q g cost goal fuel s = astarLoopPg w q g cost goal fuel s'
  | 0, _, _, _ => rfl
  | fuel + 1, s, s', h => by
    rw [astarLoopHb, astarLoopPg, h.visitNext]
    cases q.pop s'.visitNext with
    | none => rfl
    | some r =>
      obtain ⟨⟨est, node⟩, rest⟩ := r
      simp only
      rw [h.scores.same, reconstructHb_eq h.cameFrom, h.estimateScores.same]
      cases s'.scores.lookup node with
      | none => rfl
      | some nodeScore =>
        simp only
        split
        · rfl
        · have hyes := astarLoopHb_eq q g cost goal fuel (astarRelaxHb_rep w q cost node nodeScore (g.graph.edgesOf node)
            (s := { s with visitNext := rest, estimateScores := Hb.insert sh.estimateScores (2 ^ e) s.estimateScores node est })
            (s' := { s' with visitNext := rest, estimateScores := (node, est) :: s'.estimateScores })
            ⟨rfl, h.scores, h.estimateScores.insert _ _, h.cameFrom⟩)
          have hno := astarLoopHb_eq q g cost goal fuel (s := { s with visitNext := rest }) (s' := { s' with visitNext := rest })
            ⟨rfl, h.scores, h.estimateScores, h.cameFrom⟩
          cases s'.estimateScores.lookup node with
          | none => exact hyes
          | some old =>
            simp only
            by_cases hc : (!decide (old ≤ est)) = true
            · rw [if_pos hc, if_pos hc]; exact hyes
            · rw [if_neg hc, if_neg hc]; exact hno

theorem computeShortestPathHb_eq (e : Nat) (sh : SearchHashes) (q : Queue) (g : PgRouteGraph) (start goal : RouteNodeId) :
    computeShortestPathHb co w (2 ^ e) sh q g start goal = computeShortestPathPg co w q g start goal := by
  unfold computeShortestPathHb computeShortestPathPg
  rw [astarLoopHb_eq w q g _ goal _ (s' := { visitNext := q.push [] (0, start), scores := [(start, 0)], estimateScores := [], cameFrom := [] })
    ⟨rfl, (Hb.rep_new _ _).insert _ _, Hb.rep_new _ _, Hb.rep_new _ _⟩]
  cases astarLoopPg w q g (edgeCostPg co g) goal (2 * g.graph.edges.length + 2)
    { visitNext := q.push [] (0, start), scores := [(start, 0)], estimateScores := [], cameFrom := [] } with
  | error e => rfl
  | ok r => cases r <;> rfl

theorem astarLoopPg_ports (q : Queue) (gr : Pg.Graph RouteNodeData (RouteNodeId × RouteNodeId)) (l : List (TerminalPortId × RouteNodeId))
    (cost : EdgeRef → Nat) (goal : RouteNodeId) : ∀ (fuel : Nat) (s : AstarState), astarLoopPg w q ⟨gr, l⟩ cost goal fuel s = astarLoopPg w q ⟨gr, []⟩ cost goal fuel s
  | 0, _ => rfl
  | fuel + 1, s => by
    rw [astarLoopPg, astarLoopPg]
    simp only [astarLoopPg_ports q gr l cost goal fuel]

theorem computeShortestPathPg_ports (q : Queue) (gr : Pg.Graph RouteNodeData (RouteNodeId × RouteNodeId)) (l : List (TerminalPortId × RouteNodeId)) (start goal : RouteNodeId) :
    computeShortestPathPg co w q ⟨gr, l⟩ start goal = computeShortestPathPg co w q ⟨gr, []⟩ start goal := by
  unfold computeShortestPathPg
  rw [astarLoopPg_ports]
  rfl

theorem bestPathHb_eq (q : Queue) (edgeId : Nat) {g : HbRouteGraph} {g' : PgRouteGraph} (h : RepGraph hs g g') :
    ∀ (ps : List (TerminalPort × TerminalPort)) (least : Nat) (path : Option (List RouteNodeId)),
    bestPathHb hs co w q edgeId g ps least path = bestPathPg co w q g' ps least path
  | [], _, _ => rfl
  | (src, dst) :: rest, least, path => by
    obtain ⟨gr, t⟩ := g
    obtain ⟨gr', l⟩ := g'
    obtain ⟨h1, h2⟩ := h
    simp only at h1 h2
    subst h1
    rw [bestPathHb, bestPathPg]
    unfold HbRouteGraph.getTerminalPort PgRouteGraph.getTerminalPort
    simp only
    rw [h2.same, h2.same]
    simp only [bestPathHb_eq q edgeId (g := ⟨gr, t⟩) (g' := ⟨gr, l⟩) ⟨rfl, h2⟩ rest]
    cases l.lookup src.id with
    | none => rfl
    | some s =>
      cases l.lookup dst.id with
      | none => rfl
      | some t =>
        simp only [HbRouteGraph.bare, Hashes.width]
        rw [computeShortestPathHb_eq, computeShortestPathPg_ports co w q gr l]
        cases computeShortestPathPg co w q ⟨gr, []⟩ s t <;> rfl

theorem pathLocationsPg_ports (gr : Pg.Graph RouteNodeData (RouteNodeId × RouteNodeId)) (l : List (TerminalPortId × RouteNodeId)) :
    ∀ ids, pathLocationsPg ⟨gr, l⟩ ids = pathLocationsPg ⟨gr, []⟩ ids
  | [] => rfl
  | id :: ids => by
    rw [pathLocationsPg, pathLocationsPg, pathLocationsPg_ports gr l ids]
    rfl

theorem findShortestEdgesPathHb_eq (q : Queue) (doc : PgDocument) {g : HbRouteGraph} {g' : PgRouteGraph} (h : RepGraph hs g g') (i : Nat) :
    findShortestEdgesPathHb hs co w q doc g i = findShortestEdgesPathPg co w q doc g' i := by
  unfold findShortestEdgesPathHb findShortestEdgesPathPg
  cases doc.edgeEndpoints i with
  | none => rfl
  | some r =>
    obtain ⟨s, t⟩ := r
    simp only
    cases doc.graph.nodeWeight s with
    | none => rfl
    | some s =>
      cases doc.graph.nodeWeight t with
      | none => rfl
      | some t =>
        simp only
        rw [bestPathHb_eq co w q i h]
        cases bestPathPg co w q g' (portPairs s t) ROUTE_COST_MAX none with
        | error e => rfl
        | ok p =>
          cases p with
          | none => rfl
          | some p =>
            have e1 : pathLocationsPg g.bare p = pathLocationsPg g' p := by
              obtain ⟨gr, t⟩ := g
              obtain ⟨gr', l⟩ := g'
              obtain ⟨h1, _⟩ := h
              simp only at h1
              subst h1
              exact (pathLocationsPg_ports gr l p).symm
            simp only
            rw [e1]
            cases pathLocationsPg g' p <;> rfl

theorem collectPathsHb_eq (q : Queue) (doc : PgDocument) {g : HbRouteGraph} {g' : PgRouteGraph} (h : RepGraph hs g g') :
    ∀ is, collectPathsHb hs co w q doc g is = collectPathsPg co w q doc g' is
  | [] => rfl
  | i :: is => by
    rw [collectPathsHb, collectPathsPg, findShortestEdgesPathHb_eq co w q doc h i, collectPathsHb_eq q doc h is]
    cases findShortestEdgesPathPg co w q doc g' i with
    | error e => rfl
    | ok r =>
      cases collectPathsPg co w q doc g' is with
      | error e => rfl
      | ok rest => cases r <;> rfl

theorem drawEdgePathHb_eq (q : Queue) (doc : PgDocument) {g : HbRouteGraph} {g' : PgRouteGraph} (h : RepGraph hs g g') :
    drawEdgePathHb hs co w q doc g = (drawEdgePathPg co w q doc g').map Prod.fst := by
  unfold drawEdgePathHb drawEdgePathPg
  have := buildRouteGraphHb_rep co doc h
  revert this
  generalize buildRouteGraphHb hs co doc g = x
  generalize buildRouteGraphPg co doc g' = y
  intro this
  rcases x with e | g1 <;> rcases y with e' | g2
  · exact congrArg Except.error this
  · exact this.elim
  · exact this.elim
  · simp only
    rw [collectPathsHb_eq co w q doc this]
    cases collectPathsPg co w q doc g2 doc.edgeIds with
    | error e => rfl
    | ok paths =>
      simp only
      cases assignPaths doc.graph.edgeWeights paths <;> rfl

/-! ## The program -/

theorem drawModuleHb_eq (hs : Hashes) (rnd sq : Rat → Rat) (w : Nat → Nat) (q : Queue) (m : Module) : drawModuleHb hs rnd sq w q m = drawModulePgM rnd sq w q m := by
  unfold drawModuleHb drawModulePgM
  rw [intoMirHb_eq]
  cases m.intoMirPg with
  | error f => rfl
  | ok doc =>
    simp only
    rw [drawEdgePathHb_eq (hs := hs) _ w q _ (g' := PgRouteGraph.new) ⟨rfl, Hb.rep_new _ _⟩]
    cases drawEdgePathPg (Coordinates.rounded rnd sq) w q (doc.updateNodes fun d => placeTerminalPortsR rnd (placeNodesR rnd d).1) PgRouteGraph.new with
    | error f => cases f <;> rfl
    | ok r =>
      simp only [Except.map]
      cases renderR rnd (some (placeNodesR rnd doc.plain).2) r.1.plain <;> rfl

theorem drawWholeHb_eq (hs : Hashes) (l : Libraries) (m : Module) : drawWholeHb hs l m = drawWhole l m := by
  unfold drawWholeHb drawWhole
  rw [drawModuleHb_eq]
  cases drawModulePgM (roundOr l.overflow) sqrtF32 l.cost HoleHeap.queue m <;> rfl

theorem finishWholeHb_eq (hs : Hashes) (l : Libraries) (d : Devices) (filename : Str) (src : Option Str) :
    finishWholeHb hs l d filename src = finishWhole l d filename src := by
  cases src with
  | none => rfl
  | some src =>
    unfold finishWholeHb finishWhole
    simp only
    split
    · rfl
    · cases (parseWhole l src).1 with
      | none => rfl
      | some m =>
        simp only
        rw [drawWholeHb_eq]
        cases drawWhole l m <;> rfl

theorem runWholeHb_eq (hs : Hashes) (l : Libraries) (w : RawWorld) (d : Devices) : runWholeHb hs l w d = runWhole l w d := by
  unfold runWholeHb runWhole
  split
  · cases secondArg l.readsFirst w.args with
    | none => rfl
    | some p => exact finishWholeHb_eq hs l d p _
  · exact finishWholeHb_eq hs l d _ _

end Seiren
