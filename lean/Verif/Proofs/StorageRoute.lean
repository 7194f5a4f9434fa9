import Verif.Proofs.StorageDoc
import Mathlib.Data.List.Induction
/-!
# Route graphs in petgraph's storage are the route graphs of the other models
-/

namespace Seiren
open Spec
open Pg (Linked endIndex EdgeRef)

/-- The graph has room in the storage. -/
def RouteGraph.Fits (g : RouteGraph) : Prop := g.nodes.length ≤ endIndex ∧ g.edges.length ≤ endIndex

structure PgRouteGraph.Good (g : PgRouteGraph) : Prop where
  linked : Linked g.graph
  ends : g.graph.hist = g.graph.edgeWeights

theorem routeGood_new : PgRouteGraph.new.Good := ⟨Pg.linked_new, rfl⟩

theorem routePlain_nodes (g : PgRouteGraph) : g.plain.nodes.length = g.graph.nodes.length := by
  simp [PgRouteGraph.plain, Pg.Graph.nodeWeights]

theorem routePlain_edges (g : PgRouteGraph) : g.plain.edges.length = g.graph.edges.length := by
  simp [PgRouteGraph.plain, Pg.Graph.edgeWeights]

theorem range_filterMap {α : Type} (l : List α) :
    ((List.range l.length).filterMap fun i => l[i]?.map fun w => (i, w)) = l.zipIdx.map fun p => (p.2, p.1) := by
  induction l using List.reverseRecOn with
  | nil => rfl
  | append_singleton l x ih =>
    rw [List.length_append, List.length_singleton, List.range_succ, List.filterMap_append, List.zipIdx_append, List.map_append, ← ih]
    congr 1
    · refine List.filterMap_congr fun i hi => ?_
      rw [List.getElem?_append_left (List.mem_range.mp hi)]
    · simp

theorem indexed_eq (g : PgRouteGraph) : g.indexed = g.plain.indexed := by
  unfold PgRouteGraph.indexed RouteGraph.indexed
  rw [← range_filterMap, routePlain_nodes]
  refine List.filterMap_congr fun i _ => ?_
  rw [Pg.nodeWeight_eq]
  rfl

theorem getNode_eq (g : PgRouteGraph) (i : Nat) : g.getNode i = g.plain.getNode i := Pg.nodeWeight_eq _ _

theorem addNodeAt_spec {g : PgRouteGraph} (h : g.Good) (loc : Point) (o : Option Orientation) {g' : RouteGraph} {i : Nat}
    (ha : g.plain.addNodeAt loc o = .ok (g', i)) (hf : g'.Fits) :
    ∃ p, g.addNodeAt loc o = .ok (p, i) ∧ p.Good ∧ p.plain = g' := by
  unfold RouteGraph.addNodeAt at ha
  unfold PgRouteGraph.addNodeAt
  rw [indexed_eq]
  unfold RouteGraph.indexed
  rw [List.find?_map]
  have hc : ((fun p : RouteNodeId × RouteNodeData => decide (p.2.location = loc)) ∘ fun p : RouteNodeData × Nat => (p.2, p.1)) =
      fun p => decide (p.1.location = loc) := rfl
  rw [hc]
  cases hfind : g.plain.nodes.zipIdx.find? fun p => decide (p.1.location = loc) with
  | some x =>
    obtain ⟨node, k⟩ := x
    rw [hfind] at ha
    simp only [Option.map_some] at ha ⊢
    split at ha
    · cases ha
    · rename_i hne
      injection ha with ha
      injection ha with h1 h2
      subst h1 h2
      exact ⟨g, by rw [if_neg hne], h, rfl⟩
  | none =>
    rw [hfind] at ha
    simp only [Option.map_none] at ha ⊢
    injection ha with ha
    injection ha with h1 h2
    subst h1 h2
    have hl : g.graph.nodes.length < endIndex := by
      have := hf.1
      simp only [List.length_append, List.length_singleton, routePlain_nodes] at this
      omega
    obtain ⟨gr, hg⟩ := Pg.addNode_ok g.graph ⟨loc, o⟩ hl
    obtain ⟨h1, _, h3, h4⟩ := h.linked.addNode hg
    rw [hg]
    refine ⟨⟨gr, g.terminalPorts⟩, by simp only [routePlain_nodes], ⟨h1, ?_⟩, ?_⟩
    · have := h.ends
      simp only [Pg.Graph.hist, Pg.Graph.edgeWeights, h4] at this ⊢
      exact this
    · simp [PgRouteGraph.plain, h3, Pg.Graph.edgeWeights, h4]

theorem addNodeAt_grows {g g' : RouteGraph} {loc : Point} {o : Option Orientation} {i : Nat} (h : g.addNodeAt loc o = .ok (g', i)) :
    g.nodes.length ≤ g'.nodes.length ∧ g.edges = g'.edges := by
  unfold RouteGraph.addNodeAt at h
  split at h
  · split at h
    · cases h
    · injection h with h; injection h with h1 _; subst h1; exact ⟨le_refl _, rfl⟩
  · injection h with h; injection h with h1 _; subst h1; simp

theorem addTerminalPort_spec {g : PgRouteGraph} (h : g.Good) (t : TerminalPort) {g' : RouteGraph} {i : Nat}
    (ha : g.plain.addTerminalPort t = .ok (g', i)) (hf : g'.Fits) :
    ∃ p, g.addTerminalPort t = .ok (p, i) ∧ p.Good ∧ p.plain = g' := by
  unfold RouteGraph.addTerminalPort at ha
  unfold PgRouteGraph.addTerminalPort
  cases hn : g.plain.addNodeAt t.location (some t.orientation) with
  | error e => rw [hn] at ha; cases ha
  | ok r =>
    obtain ⟨g1, k⟩ := r
    rw [hn] at ha
    injection ha with ha
    injection ha with h1 h2
    subst h1 h2
    obtain ⟨p, h3, h4, h5⟩ := addNodeAt_spec h t.location (some t.orientation) hn hf
    rw [h3]
    exact ⟨_, rfl, ⟨h4.linked, h4.ends⟩, by rw [← h5]; rfl⟩

theorem addTerminalPort_grows {g g' : RouteGraph} {t : TerminalPort} {i : Nat} (h : g.addTerminalPort t = .ok (g', i)) :
    g.nodes.length ≤ g'.nodes.length ∧ g.edges = g'.edges := by
  unfold RouteGraph.addTerminalPort at h
  split at h
  · cases h
  · rename_i g1 k hn
    injection h with h; injection h with h1 _; subst h1
    have := addNodeAt_grows hn
    exact this

theorem addJunctions_grows {g g' : RouteGraph} {js : List Point} (h : addJunctions g js = .ok g') :
    g.nodes.length ≤ g'.nodes.length ∧ g.edges = g'.edges := by
  induction js generalizing g with
  | nil => injection h with h; subst h; exact ⟨le_refl _, rfl⟩
  | cons j js ih =>
    unfold addJunctions at h
    split at h
    · cases h
    · rename_i g1 k hn
      have h1 := addNodeAt_grows hn
      have h2 := ih h
      exact ⟨h1.1.trans h2.1, h1.2.trans h2.2⟩

theorem addTerminalPorts_grows {g g' : RouteGraph} {ts : List TerminalPort} (h : addTerminalPorts g ts = .ok g') :
    g.nodes.length ≤ g'.nodes.length ∧ g.edges = g'.edges := by
  induction ts generalizing g with
  | nil => injection h with h; subst h; exact ⟨le_refl _, rfl⟩
  | cons j js ih =>
    unfold addTerminalPorts at h
    split at h
    · cases h
    · rename_i g1 k hn
      have h1 := addTerminalPort_grows hn
      have h2 := ih h
      exact ⟨h1.1.trans h2.1, h1.2.trans h2.2⟩

theorem addJunctionsPg_spec {g : PgRouteGraph} (h : g.Good) (js : List Point) {g' : RouteGraph} (ha : addJunctions g.plain js = .ok g')
    (hf : g'.Fits) : ∃ p, addJunctionsPg g js = .ok p ∧ p.Good ∧ p.plain = g' := by
  induction js generalizing g with
  | nil => injection ha with ha; exact ⟨g, rfl, h, ha⟩
  | cons j js ih =>
    unfold addJunctions at ha
    unfold addJunctionsPg
    cases hn : g.plain.addNode j with
    | error e => rw [hn] at ha; cases ha
    | ok r =>
      obtain ⟨g1, k⟩ := r
      rw [hn] at ha
      simp only at ha
      have hg := addJunctions_grows ha
      have hf1 : g1.Fits := ⟨hg.1.trans hf.1, by rw [hg.2]; exact hf.2⟩
      obtain ⟨p, h3, h4, h5⟩ := addNodeAt_spec h j none hn hf1
      rw [h3]
      simp only
      exact ih h4 (h5 ▸ ha)

theorem addTerminalPortsPg_spec {g : PgRouteGraph} (h : g.Good) (ts : List TerminalPort) {g' : RouteGraph}
    (ha : addTerminalPorts g.plain ts = .ok g') (hf : g'.Fits) : ∃ p, addTerminalPortsPg g ts = .ok p ∧ p.Good ∧ p.plain = g' := by
  induction ts generalizing g with
  | nil => injection ha with ha; exact ⟨g, rfl, h, ha⟩
  | cons j js ih =>
    unfold addTerminalPorts at ha
    unfold addTerminalPortsPg
    cases hn : g.plain.addTerminalPort j with
    | error e => rw [hn] at ha; cases ha
    | ok r =>
      obtain ⟨g1, k⟩ := r
      rw [hn] at ha
      simp only at ha
      have hg := addTerminalPorts_grows ha
      have hf1 : g1.Fits := ⟨hg.1.trans hf.1, by rw [hg.2]; exact hf.2⟩
      obtain ⟨p, h3, h4, h5⟩ := addTerminalPort_spec h j hn hf1
      rw [h3]
      simp only
      exact ih h4 (h5 ▸ ha)

/-! ## The edges at a node -/

theorem zipIdx_reverse_filterMap {α β : Type} (l : List α) (f : α → Option β) :
    (l.zipIdx.reverse.filterMap fun p => f p.1) = l.reverse.filterMap f := by
  have : l.reverse = l.zipIdx.reverse.map Prod.fst := by
    rw [List.map_reverse, List.zipIdx_map_fst]
  rw [this, List.filterMap_map]
  rfl

theorem incident_target (hist : List (Nat × Nat)) (a : Nat) (ports : List (TerminalPortId × RouteNodeId)) (ns : List RouteNodeData) :
    (incident hist a).map EdgeRef.target = RouteGraph.neighbors ⟨ns, hist, ports⟩ a := by
  unfold incident RouteGraph.neighbors
  rw [List.map_append, List.map_filterMap, List.map_filterMap]
  congr 1
  · rw [← zipIdx_reverse_filterMap hist fun e => if e.1 = a then some e.2 else none]
    refine List.filterMap_congr fun p _ => ?_
    split <;> rfl
  · rw [← zipIdx_reverse_filterMap hist fun e => if e.2 = a ∧ e.1 ≠ a then some e.1 else none]
    refine List.filterMap_congr fun p _ => ?_
    split <;> rfl

theorem incident_source {hist : List (Nat × Nat)} {a : Nat} {e : EdgeRef} (h : e ∈ incident hist a) : e.source = a := by
  unfold incident at h
  rcases List.mem_append.mp h with h | h
  · obtain ⟨p, _, h⟩ := List.mem_filterMap.mp h
    split at h
    · rename_i hp; injection h with h; rw [← h]; exact hp
    · cases h
  · obtain ⟨p, _, h⟩ := List.mem_filterMap.mp h
    split at h
    · rename_i hp; injection h with h; rw [← h]; exact hp.1
    · cases h

theorem PgRouteGraph.Good.edgesOf {g : PgRouteGraph} (h : g.Good) (a : Nat) :
    (g.graph.edgesOf a).map EdgeRef.target = g.plain.neighbors a ∧ ∀ e ∈ g.graph.edgesOf a, e.source = a := by
  rw [h.linked.edgesOf_eq, h.ends]
  exact ⟨incident_target _ _ _ _, fun e he => incident_source he⟩

theorem PgRouteGraph.Good.addEdge {g : PgRouteGraph} (h : g.Good) {a b : Nat} (ha : a < g.plain.nodes.length) (hb : b < g.plain.nodes.length)
    (hf : (g.plain.addEdge a b).Fits) : ∃ p, g.addEdge a b = .ok p ∧ p.Good ∧ p.plain = g.plain.addEdge a b := by
  unfold RouteGraph.addEdge at hf ⊢
  unfold PgRouteGraph.addEdge
  have hany : (g.graph.edgesOf a).any (fun e => e.target == b) = (g.plain.neighbors a).any (· == b) := by
    rw [← (h.edgesOf a).1, List.any_map]
    rfl
  rw [hany]
  by_cases hc : (g.plain.neighbors a).any (· == b) = true
  · rw [if_pos hc, if_pos hc]
    exact ⟨g, rfl, h, rfl⟩
  · rw [if_neg hc] at hf ⊢
    rw [if_neg hc]
    rw [routePlain_nodes] at ha hb
    have hl : g.graph.edges.length < endIndex := by
      have := hf.2
      simp only [List.length_append, List.length_singleton, routePlain_edges] at this
      omega
    obtain ⟨gr, hg⟩ := Pg.addEdge_ok g.graph (a, b) hl ha hb
    obtain ⟨h1, _, h3, h4, h5⟩ := h.linked.addEdge hg
    rw [hg]
    refine ⟨⟨gr, g.terminalPorts⟩, rfl, ⟨h1, ?_⟩, ?_⟩
    · rw [h5, h4, h.ends]
    · simp [PgRouteGraph.plain, h3, h4]

theorem addEdge_grows (g : RouteGraph) (a b : Nat) : g.nodes = (g.addEdge a b).nodes ∧ g.edges.length ≤ (g.addEdge a b).edges.length := by
  unfold RouteGraph.addEdge
  split <;> simp

theorem addEdges_grows (g : RouteGraph) (es : List (Nat × Nat)) :
    g.nodes = (es.foldl (fun g (a, b) => g.addEdge a b) g).nodes ∧
    g.edges.length ≤ (es.foldl (fun g (a, b) => g.addEdge a b) g).edges.length := by
  induction es generalizing g with
  | nil => exact ⟨rfl, le_refl _⟩
  | cons e es ih =>
    rw [List.foldl_cons]
    have h1 := addEdge_grows g e.1 e.2
    have h2 := ih (g.addEdge e.1 e.2)
    exact ⟨h1.1.trans h2.1, h1.2.trans h2.2⟩

theorem addEdgesPg_spec {g : PgRouteGraph} (h : g.Good) (es : List (Nat × Nat))
    (hv : ∀ e ∈ es, e.1 < g.plain.nodes.length ∧ e.2 < g.plain.nodes.length)
    (hf : (es.foldl (fun g (a, b) => g.addEdge a b) g.plain).Fits) :
    ∃ p, addEdgesPg g es = .ok p ∧ p.Good ∧ p.plain = es.foldl (fun g (a, b) => g.addEdge a b) g.plain := by
  induction es generalizing g with
  | nil => exact ⟨g, rfl, h, rfl⟩
  | cons e es ih =>
    obtain ⟨a, b⟩ := e
    rw [List.foldl_cons] at hf ⊢
    simp only at hf ⊢
    have hgr := addEdges_grows (g.plain.addEdge a b) es
    have hf1 : (g.plain.addEdge a b).Fits := ⟨by rw [hgr.1]; exact hf.1, hgr.2.trans hf.2⟩
    have hv0 := hv _ List.mem_cons_self
    obtain ⟨p, h1, h2, h3⟩ := h.addEdge hv0.1 hv0.2 hf1
    unfold addEdgesPg
    rw [h1]
    simp only
    rw [← h3] at hf ⊢
    refine ih h2 (fun x hx => ?_) hf
    rw [h3, ← (addEdge_grows g.plain a b).1]
    exact hv x (List.mem_cons_of_mem _ hx)

/-! ## Construction of the route graph -/

/-- The neighbours are among the nodes that were given. -/
def Coordinates.Local (co : Coordinates) : Prop :=
  ∀ doc ns n a, ∀ e ∈ (co.nearest doc ns n).toEdges a, e.1 = a ∧ e.2 ∈ ns.map Prod.fst

/-- The construction of the list of `Model/Layout` with the given computations. -/
def buildOf (co : Coordinates) (doc : Document) (g : RouteGraph) : Except Panic RouteGraph :=
  match addJunctions g (co.junctions doc) with
  | .error e => .error e
  | .ok g =>
    match addTerminalPorts g (doc.edges.flatMap (edgePorts doc)) with
    | .error e => .error e
    | .ok g => .ok ((g.indexed.flatMap fun p => (co.nearest doc g.indexed p.2).toEdges p.1).foldl (fun g (a, b) => g.addEdge a b) g)

theorem buildOf_exact : buildOf Coordinates.exact = buildRouteGraph := rfl
theorem buildOf_rounded (rnd sq : Rat → Rat) : buildOf (Coordinates.rounded rnd sq) = buildRouteGraphR rnd := rfl

theorem indexed_lt {g : RouteGraph} {i : Nat} (h : i ∈ g.indexed.map Prod.fst) : i < g.nodes.length := by
  unfold RouteGraph.indexed at h
  rw [List.map_map] at h
  obtain ⟨p, hp, rfl⟩ := List.mem_map.mp h
  have := List.mem_zipIdx hp
  simpa using this.2.1

theorem buildRouteGraphPg_spec {co : Coordinates} (hco : co.Local) (doc : PgDocument) {g : PgRouteGraph} (h : g.Good) {g' : RouteGraph}
    (hb : buildOf co doc.plain g.plain = .ok g') (hf : g'.Fits) : ∃ p, buildRouteGraphPg co doc g = .ok p ∧ p.Good ∧ p.plain = g' := by
  unfold buildOf at hb
  unfold buildRouteGraphPg
  cases h1 : addJunctions g.plain (co.junctions doc.plain) with
  | error e => rw [h1] at hb; cases hb
  | ok g1 =>
    rw [h1] at hb
    simp only at hb
    cases h2 : addTerminalPorts g1 (doc.plain.edges.flatMap (edgePorts doc.plain)) with
    | error e => rw [h2] at hb; cases hb
    | ok g2 =>
      rw [h2] at hb
      simp only at hb
      injection hb with hb
      subst hb
      have e3 := addEdges_grows g2 (g2.indexed.flatMap fun p => (co.nearest doc.plain g2.indexed p.2).toEdges p.1)
      have hf2 : g2.Fits := ⟨by rw [e3.1]; exact hf.1, e3.2.trans hf.2⟩
      have e2 := addTerminalPorts_grows h2
      have hf1 : g1.Fits := ⟨e2.1.trans hf2.1, by rw [e2.2]; exact hf2.2⟩
      obtain ⟨p1, a1, a2, a3⟩ := addJunctionsPg_spec h _ h1 hf1
      rw [a1]
      simp only
      obtain ⟨p2, b1, b2, b3⟩ := addTerminalPortsPg_spec a2 _ (a3 ▸ h2) hf2
      rw [b1]
      simp only
      unfold connectNearestPg
      rw [indexed_eq, ← b3]
      refine addEdgesPg_spec b2 _ ?_ (by rw [b3]; exact hf)
      intro e he
      obtain ⟨x, hx, he⟩ := List.mem_flatMap.mp he
      have := hco doc.plain p2.plain.indexed x.2 x.1 e he
      refine ⟨?_, indexed_lt this.2⟩
      rw [this.1]
      exact indexed_lt (List.mem_map_of_mem hx)

end Seiren
