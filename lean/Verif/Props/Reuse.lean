import Verif.Props.Avoid
/-! # C39: drawing with an engine that has drawn before -/

namespace Seiren
open Spec

/-- The graphs differ at most in the order of the port table. -/
def SameGraph (g g' : RouteGraph) : Prop :=
  g.nodes = g'.nodes ∧ g.edges = g'.edges ∧ ∀ id, g.getTerminalPort id = g'.getTerminalPort id

theorem SameGraph.trans {a b c : RouteGraph} (h : SameGraph a b) (h' : SameGraph b c) : SameGraph a c :=
  ⟨h.1.trans h'.1, h.2.1.trans h'.2.1, fun id => (h.2.2 id).trans (h'.2.2 id)⟩

theorem SameGraph.symm {a b : RouteGraph} (h : SameGraph a b) : SameGraph b a :=
  ⟨h.1.symm, h.2.1.symm, fun id => (h.2.2 id).symm⟩

theorem astarLoop_same (q : Queue) {g g' : RouteGraph} (h : SameGraph g g') (cost : RouteNodeId → RouteNodeId → Nat)
    (goal : RouteNodeId) (fuel : Nat) (st : AstarState) : astarLoop q g cost goal fuel st = astarLoop q g' cost goal fuel st := by
  induction fuel generalizing st with
  | zero => rfl
  | succ fuel ih =>
    have hn : g.neighbors = g'.neighbors := by funext a; simp only [RouteGraph.neighbors, h.2.1]
    simp only [astarLoop, ih, hn, h.1]

theorem computeShortestPath_same (q : Queue) {g g' : RouteGraph} (h : SameGraph g g') (s t : RouteNodeId) :
    computeShortestPath q g s t = computeShortestPath q g' s t := by
  have hc : edgeCost g = edgeCost g' := by funext a b; simp only [edgeCost, RouteGraph.getNode, h.1]
  simp only [computeShortestPath, astar, h.2.1, hc, astarLoop_same q h]

theorem bestPath_same (q : Queue) {g g' : RouteGraph} (h : SameGraph g g') (l : List (TerminalPort × TerminalPort)) (c : Nat)
    (p : Option (List RouteNodeId)) : bestPath q g l c p = bestPath q g' l c p := by
  induction l generalizing c p with
  | nil => rfl
  | cons x l ih =>
    obtain ⟨src, dst⟩ := x
    simp only [bestPath, h.2.2, computeShortestPath_same q h, ih]

theorem pathLocations_same {g g' : RouteGraph} (h : SameGraph g g') (l : List RouteNodeId) :
    pathLocations g l = pathLocations g' l := by
  induction l with
  | nil => rfl
  | cons x l ih => simp only [pathLocations, RouteGraph.getNode, h.1, ih]

theorem collectPaths_same (q : Queue) (doc : Document) {g g' : RouteGraph} (h : SameGraph g g') (es : List EdgeData) :
    collectPaths q doc g es = collectPaths q doc g' es := by
  induction es with
  | nil => rfl
  | cons e es ih =>
    have : findShortestEdgesPath q doc g e = findShortestEdgesPath q doc g' e := by
      simp only [findShortestEdgesPath, bestPath_same q h, pathLocations_same h]
    simp only [collectPaths, this, ih]

/-! ## Adding again what is there -/

theorem addNodeAt_there {g : RouteGraph} (hg : WellFormed g) {loc : Point} {o : Option Orientation} {i : RouteNodeId}
    (h : g.nodes[i]? = some ⟨loc, o⟩) : g.addNodeAt loc o = .ok (g, i) := by
  unfold RouteGraph.addNodeAt
  split
  · rename_i node j hf
    obtain ⟨h1, h2⟩ := find_zipIdx_some hf
    have hij : j = i := node_unique hg h1 h h2
    subst hij
    rw [h] at h1
    cases h1
    rw [if_neg (by simp)]
  · rename_i hf
    exfalso
    rw [List.find?_eq_none] at hf
    have hmem : ((⟨loc, o⟩ : RouteNodeData), i) ∈ g.nodes.zipIdx := by
      rw [List.mem_zipIdx_iff_getElem?]; exact h
    have := hf _ hmem
    simp at this

theorem addJunctions_there {g : RouteGraph} (hg : WellFormed g) (js : List Point)
    (h : ∀ j ∈ js, (⟨j, none⟩ : RouteNodeData) ∈ g.nodes) : addJunctions g js = .ok g := by
  induction js with
  | nil => rfl
  | cons j js ih =>
    obtain ⟨i, hi⟩ := List.getElem?_of_mem (h j (by simp))
    simp only [addJunctions, RouteGraph.addNode, addNodeAt_there hg hi]
    exact ih (fun k hk => h k (by simp [hk]))

theorem addTerminalPorts_there {g : RouteGraph} (hg : WellFormed g) (ps : List TerminalPort)
    (h : ∀ p ∈ ps, ∃ i, g.getTerminalPort p.id = some i ∧ g.nodes[i]? = some ⟨p.location, some p.orientation⟩) :
    ∃ g', addTerminalPorts g ps = .ok g' ∧ SameGraph g' g := by
  induction ps generalizing g with
  | nil => exact ⟨g, rfl, rfl, rfl, fun _ => rfl⟩
  | cons p ps ih =>
    obtain ⟨i, h1, h2⟩ := h p (by simp)
    have hs : SameGraph { g with terminalPorts := (p.id, i) :: g.terminalPorts } g := by
      refine ⟨rfl, rfl, ?_⟩
      intro id
      simp only [RouteGraph.getTerminalPort] at h1 ⊢
      rw [List.lookup_cons]
      by_cases hh : id = p.id
      · subst hh; simp [h1]
      · rw [beq_eq_false_iff_ne.mpr hh]
    obtain ⟨g', h3, h4⟩ := ih (g := { g with terminalPorts := (p.id, i) :: g.terminalPorts })
      ⟨hg.locations, hg.ends, hg.simple⟩ (by
        intro r hr
        obtain ⟨j, hj, hj'⟩ := h r (by simp [hr])
        exact ⟨j, by rw [hs.2.2]; exact hj, hj'⟩)
    refine ⟨g', ?_, h4.trans hs⟩
    simp only [addTerminalPorts, RouteGraph.addTerminalPort, addNodeAt_there hg h2]
    exact h3

theorem addEdge_there {g : RouteGraph} {a b : RouteNodeId} (h : Joined g a b) : g.addEdge a b = g := by
  unfold RouteGraph.addEdge
  rw [if_pos]
  rw [List.any_eq_true]
  exact ⟨b, (mem_neighbors g a b).mpr h, by simp⟩

theorem connect_there (doc : Document) {g : RouteGraph}
    (h : ∀ a b, Chosen (collisionRects doc) g a b → Joined g a b) : connectNearest doc g = g := by
  have key : ∀ (es : List (RouteNodeId × RouteNodeId)), (∀ e ∈ es, Joined g e.1 e.2) →
      es.foldl (fun g (e : RouteNodeId × RouteNodeId) => g.addEdge e.1 e.2) g = g := by
    intro es
    induction es with
    | nil => intro _; rfl
    | cons e es ih =>
      intro he
      rw [List.foldl_cons, addEdge_there (he e (by simp))]
      exact ih (fun x hx => he x (by simp [hx]))
  unfold connectNearest
  simp only
  apply key
  rintro ⟨a, b⟩ he
  rw [mem_edges_connect] at he
  exact h a b he

theorem chosen_same {rects : List Rect} {g g' : RouteGraph} (h : g.nodes = g'.nodes) (a b : RouteNodeId) :
    Chosen rects g a b ↔ Chosen rects g' a b := by
  simp only [Chosen, nearestOf, RouteGraph.indexed, h]

/-- Building the graph of the same document again changes nothing. -/
theorem rebuild {doc : Document} {g : RouteGraph} (hg : SceneGraph doc g) {g1 : RouteGraph}
    (h : SameGraph g1 (connectNearest doc g)) :
    ∃ g2, buildRouteGraph doc g1 = .ok g2 ∧ SameGraph g2 (connectNearest doc g) := by
  have hn : g1.nodes = g.nodes := h.1.trans (connect_nodes doc g).1
  have hwf : WellFormed g1 := by
    have := connect_wellFormed doc g hg.wf
    exact ⟨by rw [h.1]; exact this.locations, by rw [h.1, h.2.1]; exact this.ends, by rw [h.2.1]; exact this.simple⟩
  have h1 := addJunctions_there hwf (junctionsOf doc) (by
    intro j hj
    rw [hn, hg.nodes]
    exact Or.inl ⟨j, hj, rfl⟩)
  obtain ⟨g2, h2, h3⟩ := addTerminalPorts_there hwf (portsOfEdges doc) (by
    intro p hp
    obtain ⟨i, hi, hi'⟩ := hg.ports p hp
    refine ⟨i, ?_, by rw [hn]; exact hi'⟩
    rw [h.2.2, ← hi]
    simp only [RouteGraph.getTerminalPort, (connect_nodes doc g).2])
  have h4 : connectNearest doc g2 = g2 := by
    apply connect_there
    intro a b hab
    have e : g2.nodes = g.nodes := h3.1.trans hn
    rw [chosen_same e] at hab
    have : Joined (connectNearest doc g) a b := (joined_connect doc g a b).mpr (Or.inr (Or.inl hab))
    unfold Joined at this ⊢
    rw [h3.2.1, h.2.1]
    exact this
  refine ⟨g2, ?_, h3.trans h⟩
  unfold buildRouteGraph
  unfold junctionsOf at h1
  unfold portsOfEdges at h2
  simp only [h1, h2, h4]

/-! ## C39 -/

/-- The states of an engine that has drawn this document, once or more often, and nothing else. -/
inductive Spec.DrewOnly (q : Queue) (doc : Document) : RouteGraph → Prop
  | once {d g} : drawEdgePath q doc .new = .ok (d, g) → DrewOnly q doc g
  | again {d g g'} : DrewOnly q doc g → drawEdgePath q doc g = .ok (d, g') → DrewOnly q doc g'

/-- **C39, the part that holds.** The full property, that an engine gives the same result whatever it has drawn before,
is false (`C39_refuted`, `C39_refuted_panic`).  What holds: an engine that has drawn a document any number of times (and
no other) draws it again without a panic and with the same result as a new engine. -/
theorem C39_engine_reuse_partial {q : Queue} {QI : List Entry → Prop} (hq : q.Lawful QI) (doc : Document) (hd : Drawable doc)
    (hsize : (placeNodes doc).2.size.height ≤ 1000000000) (g : RouteGraph) (h : DrewOnly q (laidOut doc) g) :
    ∃ d g1 g2, drawEdgePath q (laidOut doc) .new = .ok (d, g1) ∧ drawEdgePath q (laidOut doc) g = .ok (d, g2) ∧
      g2.nodes = g1.nodes ∧ g2.edges = g1.edges := by
  obtain ⟨g0, es, hg, hdraw, -⟩ := draw_ok hq (scene_laidOut hd hsize) (edgeEnds_laidOut hd)
  have step : ∀ g1, SameGraph g1 (connectNearest (laidOut doc) g0) →
      ∃ g2, drawEdgePath q (laidOut doc) g1 = .ok ({ laidOut doc with edges := es }, g2) ∧
        SameGraph g2 (connectNearest (laidOut doc) g0) := by
    intro g1 h1
    obtain ⟨g2, h2, h3⟩ := rebuild hg h1
    refine ⟨g2, ?_, h3⟩
    unfold drawEdgePath at hdraw ⊢
    rw [hg.built] at hdraw
    rw [h2]
    simp only [collectPaths_same q (laidOut doc) h3] at hdraw ⊢
    cases hc : collectPaths q (laidOut doc) (connectNearest (laidOut doc) g0) (laidOut doc).edges with
    | error e => rw [hc] at hdraw; cases hdraw
    | ok paths =>
      rw [hc] at hdraw
      simp only at hdraw ⊢
      cases ha : assignPaths (laidOut doc).edges paths with
      | error e => rw [ha] at hdraw; cases hdraw
      | ok edges =>
        rw [ha] at hdraw
        simp only [Except.ok.injEq, Prod.mk.injEq, Document.mk.injEq, true_and, and_true] at hdraw ⊢
        exact hdraw
  have hsame : SameGraph g (connectNearest (laidOut doc) g0) := by
    induction h with
    | once h1 =>
      rw [hdraw] at h1
      simp only [Except.ok.injEq, Prod.mk.injEq] at h1
      rw [← h1.2]
      exact ⟨rfl, rfl, fun _ => rfl⟩
    | again _ h1 ih =>
      obtain ⟨g2, h2, h3⟩ := step _ ih
      rw [h2] at h1
      simp only [Except.ok.injEq, Prod.mk.injEq] at h1
      rw [← h1.2]
      exact h3
  obtain ⟨g2, h2, h3⟩ := step g hsame
  exact ⟨_, _, g2, hdraw, h2, h3.1, h3.2.1⟩

/-- What an engine draws after it has drawn another document. -/
def drawAfter (m m' : Module) : Except Panic (Document × RouteGraph) :=
  match drawEdgePath BinHeap.queue (laidOut m.intoMir) .new with
  | .error e => .error e
  | .ok (_, g) => drawEdgePath BinHeap.queue (laidOut m'.intoMir) g

theorem drawAfter_same : pathsOf (drawAfter threeTables threeTables) =
    some [some [⟨350, 205/2⟩, ⟨390, 205/2⟩, ⟨390, 160⟩, ⟨770, 160⟩, ⟨770, 275/2⟩, ⟨810, 275/2⟩]] := by decide +kernel

/-- Three tables with the given numbers of columns, and a relation between the first and the third. -/
def tablesWith (a b c : Nat) : Module :=
  ⟨none, [.definition ⟨c!"a", List.replicate a ⟨c!"x", .int, none⟩⟩, .definition ⟨c!"b", List.replicate b ⟨c!"x", .int, none⟩⟩,
    .definition ⟨c!"c", List.replicate c ⟨c!"x", .int, none⟩⟩, .relation ⟨.field c!"a" c!"x", .field c!"c" c!"x"⟩]⟩

set_option maxRecDepth 100000 in
/-- **C39 is false as stated**: after another diagram, the path of a relation is a different one. -/
theorem C39_refuted : ∃ m m' : Module,
    pathsOf (drawEdgePath BinHeap.queue (laidOut m'.intoMir) .new) =
      some [some [⟨350, 205/2⟩, ⟨390, 205/2⟩, ⟨390, 160⟩, ⟨770, 160⟩, ⟨770, 275/2⟩, ⟨810, 275/2⟩]] ∧
    pathsOf (drawAfter m m') =
      some [some [⟨350, 205/2⟩, ⟨390, 205/2⟩, ⟨390, 125⟩, ⟨770, 125⟩, ⟨770, 275/2⟩, ⟨810, 275/2⟩]] :=
  ⟨tablesWith 1 0 1, tablesWith 1 1 2, by decide +kernel, by decide +kernel⟩

/-- Thirteen tables without columns. -/
def manyTables : Module :=
  ⟨none, (['a', 'b', 'c', 'd', 'e', 'f', 'g', 'h', 'i', 'j', 'k', 'l', 'm'].map fun n => .definition ⟨[n], []⟩) ++
    [.relation ⟨.entity c!"a", .entity c!"m"⟩]⟩

/-- A table with eleven columns. -/
def longTable : Module :=
  ⟨none, [.definition ⟨c!"a", ['a', 'b', 'c', 'd', 'e', 'f', 'g', 'h', 'i', 'j', 'k'].map fun n => ⟨[n], .int, none⟩⟩,
    .definition ⟨c!"b", []⟩, .relation ⟨.field c!"a" c!"k", .entity c!"b"⟩]⟩

set_option maxRecDepth 1000000 in
/-- **C39 is false as stated**, worse: both diagrams can be drawn by a new engine, but the second drawing by the same
engine panics, because a junction of the first is where the second has a port. -/
theorem C39_refuted_panic : ∃ m m' : Module,
    (pathsOf (drawEdgePath BinHeap.queue (laidOut m.intoMir) .new)).isSome ∧
    (pathsOf (drawEdgePath BinHeap.queue (laidOut m'.intoMir) .new)).isSome ∧
    (match drawAfter m m' with | .error .orientationConflict => true | _ => false) = true :=
  ⟨manyTables, longTable, by decide +kernel, by decide +kernel, by decide +kernel⟩

end Seiren
