import Verif.Props.Picture
import Verif.Props.Reuse
/-! # C72: the order of the relations -/

namespace Seiren
open Spec

/-! ## The road map depends on the order of the first mentions only -/

section
variable {α β : Type} [BEq α] [LawfulBEq α] [DecidableEq α] [BEq β] [LawfulBEq β] [DecidableEq β]

omit [DecidableEq α] in
theorem eraseDups_append_sub (l xs : List α) (h : ∀ x ∈ xs, x ∈ l) : (l ++ xs).eraseDups = l.eraseDups := by
  rw [List.eraseDups_append]
  have : xs.removeAll l = [] := by
    rw [List.removeAll, List.filter_eq_nil_iff]
    intro x hx
    simpa using h x hx
  rw [this]
  simp

theorem eraseDups_filter (p : α → Bool) (l : List α) : (l.filter p).eraseDups = l.eraseDups.filter p := by
  induction l using List.reverseRecOn with
  | nil => simp
  | append_singleton l x ih =>
    rw [List.filter_append, eraseDups_concat]
    by_cases hp : p x = true
    · rw [List.filter_cons_of_pos hp, List.filter_nil, eraseDups_concat]
      by_cases hx : x ∈ l
      · rw [if_pos hx, if_pos (List.mem_filter.mpr ⟨hx, hp⟩), ih]
      · rw [if_neg hx, if_neg (fun h => hx (List.mem_filter.mp h).1), ih, List.filter_append, List.filter_cons_of_pos hp,
          List.filter_nil]
    · rw [List.filter_cons_of_neg hp, List.filter_nil, List.append_nil, ih]
      split
      · rfl
      · rw [List.filter_append, List.filter_cons_of_neg hp, List.filter_nil, List.append_nil]

theorem eraseDups_append_congr {a a' b b' : List α} (ha : a.eraseDups = a'.eraseDups) (hb : b.eraseDups = b'.eraseDups) :
    (a ++ b).eraseDups = (a' ++ b').eraseDups := by
  rw [List.eraseDups_append, List.eraseDups_append, ha, List.removeAll, List.removeAll, eraseDups_filter, eraseDups_filter, hb]
  congr 2
  funext x
  have h : x ∈ a ↔ x ∈ a' := by rw [← List.mem_eraseDups, ha, List.mem_eraseDups]
  by_cases hx : x ∈ a
  · simp [hx, h.mp hx]
  · have hx' : x ∉ a' := fun h' => hx (h.mpr h')
    simp [hx, hx']

theorem eraseDups_flatMap (f : α → List β) (l : List α) : (l.flatMap f).eraseDups = (l.eraseDups.flatMap f).eraseDups := by
  induction l using List.reverseRecOn with
  | nil => simp
  | append_singleton l x ih =>
    rw [List.flatMap_append, eraseDups_concat]
    by_cases hx : x ∈ l
    · rw [if_pos hx, eraseDups_append_sub, ih]
      intro y hy
      simp only [List.flatMap_cons, List.flatMap_nil, List.append_nil] at hy
      exact List.mem_flatMap.mpr ⟨x, hx, hy⟩
    · rw [if_neg hx, List.flatMap_append]
      exact eraseDups_append_congr ih rfl

end

/-- The tables and columns that relations mention, each once, in the order of their first mention. -/
def Spec.mentions (cs : List (NodeRef × NodeRef)) : List NodeRef := (cs.flatMap fun c => [c.1, c.2]).eraseDups

theorem places_mentions (ns : List Nat) {cs cs' : List (NodeRef × NodeRef)} (h : mentions cs = mentions cs') :
    places ns (allEnds ns cs) = places ns (allEnds ns cs') := by
  have e : ∀ cs, allEnds ns cs = (cs.flatMap fun c => [c.1, c.2]).flatMap (endsOf ns) := by
    intro cs
    rw [allEnds, List.flatMap_assoc]
    simp
  have key : ∀ (F G : NodeRef → List RouteNodeData) (A : List RouteNodeData) (l : List NodeRef),
      (A ++ l.flatMap F ++ l.flatMap G).eraseDups = (A ++ l.eraseDups.flatMap F ++ l.eraseDups.flatMap G).eraseDups := by
    intro F G A l
    exact eraseDups_append_congr (eraseDups_append_congr rfl (eraseDups_flatMap F l)) (eraseDups_flatMap G l)
  have step : ∀ l : List NodeRef, places ns (l.flatMap (endsOf ns)) = places ns (l.eraseDups.flatMap (endsOf ns)) := by
    intro l
    unfold places crossings
    simp only [List.filter_append, List.map_append, List.flatMap_assoc, List.filter_flatMap, List.map_flatMap]
    exact key _ _ _ l
  rw [e, e, step, step (cs'.flatMap _)]
  unfold mentions at h
  rw [h]

/-! ## Searching in graphs with the same nodes and edges -/

/-- The graphs have the same nodes and the same edges; their ports may have different names. -/
def SameRoads (g g' : RouteGraph) : Prop := g.nodes = g'.nodes ∧ g.edges = g'.edges

theorem SameRoads.path {g g' : RouteGraph} (h : SameRoads g g') (q : Queue) (s t : RouteNodeId) :
    computeShortestPath q g s t = computeShortestPath q g' s t := by
  have hl : ∀ (cost : RouteNodeId → RouteNodeId → Nat) (goal : RouteNodeId) (fuel : Nat) (st : AstarState),
      astarLoop q g cost goal fuel st = astarLoop q g' cost goal fuel st := by
    intro cost goal fuel
    induction fuel with
    | zero => intro st; rfl
    | succ fuel ih =>
      intro st
      have hn : g.neighbors = g'.neighbors := by funext a; simp only [RouteGraph.neighbors, h.2]
      simp only [astarLoop, ih, hn, h.1]
  have hc : edgeCost g = edgeCost g' := by funext a b; simp only [edgeCost, RouteGraph.getNode, h.1]
  simp only [computeShortestPath, astar, h.2, hc, hl]

theorem SameRoads.best {g g' : RouteGraph} (h : SameRoads g g') (q : Queue) {l l' : List (TerminalPort × TerminalPort)}
    (hl : List.Forall₂ (fun x y => g.getTerminalPort x.1.id = g'.getTerminalPort y.1.id ∧
      g.getTerminalPort x.2.id = g'.getTerminalPort y.2.id) l l') (c : Nat) (p : Option (List RouteNodeId)) :
    bestPath q g l c p = bestPath q g' l' c p := by
  induction hl generalizing c p with
  | nil => rfl
  | @cons x y l l' hx _ ih =>
    obtain ⟨a, b⟩ := x
    obtain ⟨a', b'⟩ := y
    obtain ⟨h1, h2⟩ := hx
    simp only at h1 h2
    simp only [bestPath, h1, h2, h.path, ih]

theorem SameRoads.locations {g g' : RouteGraph} (h : SameRoads g g') (l : List RouteNodeId) : pathLocations g l = pathLocations g' l := by
  induction l with
  | nil => rfl
  | cons x l ih => simp only [pathLocations, RouteGraph.getNode, h.1, ih]

theorem SameRoads.addEdges {g g' : RouteGraph} (h : SameRoads g g') (es : List (RouteNodeId × RouteNodeId)) :
    SameRoads (es.foldl (fun g (e : RouteNodeId × RouteNodeId) => g.addEdge e.1 e.2) g)
      (es.foldl (fun g (e : RouteNodeId × RouteNodeId) => g.addEdge e.1 e.2) g') := by
  induction es generalizing g g' with
  | nil => exact h
  | cons e es ih =>
    rw [List.foldl_cons, List.foldl_cons]
    apply ih
    have hn : g.neighbors e.1 = g'.neighbors e.1 := by simp only [RouteGraph.neighbors, h.2]
    unfold RouteGraph.addEdge
    rw [hn]
    split
    · exact h
    · exact ⟨h.1, by simp [h.2]⟩

theorem SameRoads.connect {doc doc' : Document} {g g' : RouteGraph} (h : SameRoads g g')
    (hr : shapeRects doc = shapeRects doc') : SameRoads (connectNearest doc g) (connectNearest doc' g') := by
  have hi : g.indexed = g'.indexed := by simp only [RouteGraph.indexed, h.1]
  have hn : ∀ n, nearestOf (collisionRects doc) g n = nearestOf (collisionRects doc') g' n := by
    intro n; simp only [nearestOf, collisionRects, hi, hr]
  unfold connectNearest
  simp only [hi, hn]
  exact h.addEdges _

/-! ## The paths of two modules -/

/-- What has been drawn, edge by edge. -/
theorem draw_paths {q : Queue} {QI : List Entry → Prop} (hq : q.Lawful QI) (m : Module)
    (hsize : (placeNodes m.intoMir).2.size.height ≤ 1000000000) (doc' : Document) (g' : RouteGraph)
    (h : drawEdgePath q (laidOut m.intoMir) .new = .ok (doc', g')) :
    ∃ g, SceneGraph (laidOut m.intoMir) g ∧ g' = connectNearest (laidOut m.intoMir) g ∧
      List.Forall₂ (fun c e => nodeOf m.intoMir c.1 = some e.sourceId ∧ nodeOf m.intoMir c.2 = some e.targetId ∧
          (∃ e0 ∈ (laidOut m.intoMir).edges, e0.sourceId = e.sourceId ∧ e0.targetId = e.targetId) ∧
          findShortestEdgesPath q (laidOut m.intoMir) g' e = .ok e.pathPoints)
        (connections [] m.entries) doc'.edges := by
  have hd := drawable_intoMir m
  have hsc := scene_laidOut hd hsize
  obtain ⟨g, hg⟩ := hsc.graph
  have hfind := fun e he => find_ok hq hsc hg e he (edgeEnds_laidOut hd e he)
  unfold drawEdgePath at h
  rw [hg.built] at h
  simp only at h
  have key : ∀ es : List EdgeData, (∀ e ∈ es, e ∈ (laidOut m.intoMir).edges) →
      ∃ pss es', collectPaths q (laidOut m.intoMir) (connectNearest (laidOut m.intoMir) g) es = .ok pss ∧ assignPaths es pss = .ok es' ∧
        List.Forall₂ (fun e e' => e.sourceId = e'.sourceId ∧ e.targetId = e'.targetId ∧
          findShortestEdgesPath q (laidOut m.intoMir) (connectNearest (laidOut m.intoMir) g) e = .ok e'.pathPoints) es es' := by
    intro es
    induction es with
    | nil => intro _; exact ⟨[], [], rfl, rfl, .nil⟩
    | cons e es ih =>
      intro hm
      obtain ⟨pss, es', h1, h2, h3⟩ := ih fun e' he' => hm e' (by simp [he'])
      obtain ⟨ps, h4, -⟩ := hfind e (hm e (by simp))
      refine ⟨ps :: pss, { e with pathPoints := some ps } :: es', ?_, ?_, .cons ⟨rfl, rfl, h4⟩ h3⟩
      · simp only [collectPaths, h4, h1]
      · simp only [assignPaths, h2]
  obtain ⟨pss, es', h1, h2, h3⟩ := key _ fun _ h => h
  rw [h1] at h
  simp only [h2, Except.ok.injEq, Prod.mk.injEq] at h
  obtain ⟨rfl, rfl⟩ := h
  refine ⟨g, hg, rfl, ?_⟩
  have hc := (C17_relations m).1
  rw [← (laidOut_edges m.intoMir).1] at hc
  have pair : ∀ (es es' : List EdgeData) (cs : List (NodeRef × NodeRef)),
      List.Forall₂ (fun e e' => e.sourceId = e'.sourceId ∧ e.targetId = e'.targetId ∧
        findShortestEdgesPath q (laidOut m.intoMir) (connectNearest (laidOut m.intoMir) g) e = .ok e'.pathPoints) es es' →
      (es.map fun e => (some e.sourceId, some e.targetId)) = (cs.map fun c => (nodeOf m.intoMir c.1, nodeOf m.intoMir c.2)) →
      (∀ e ∈ es, e ∈ (laidOut m.intoMir).edges) →
      List.Forall₂ (fun c e => nodeOf m.intoMir c.1 = some e.sourceId ∧ nodeOf m.intoMir c.2 = some e.targetId ∧
          (∃ e0 ∈ (laidOut m.intoMir).edges, e0.sourceId = e.sourceId ∧ e0.targetId = e.targetId) ∧
          findShortestEdgesPath q (laidOut m.intoMir) (connectNearest (laidOut m.intoMir) g) e = .ok e.pathPoints) cs es' := by
    intro es es' cs h3
    induction h3 generalizing cs with
    | nil =>
      intro hc _
      cases cs with
      | nil => exact .nil
      | cons c cs => simp at hc
    | @cons e e' es es' h4 _ ih =>
      intro hc hmem
      cases cs with
      | nil => simp at hc
      | cons c cs =>
        simp only [List.map_cons, List.cons.injEq, Prod.mk.injEq] at hc
        obtain ⟨h5, h6, h7⟩ := h4
        refine .cons ⟨by rw [← h5]; exact hc.1.1.symm, by rw [← h6]; exact hc.1.2.symm, ⟨e, hmem e (by simp), h5, h6⟩, ?_⟩
          (ih cs hc.2 fun x hx => hmem x (by simp [hx]))
        rw [← h7]
        unfold findShortestEdgesPath
        rw [h5, h6]
  exact pair _ _ _ h3 hc fun _ h => h

/-- Two modules whose tables have the same numbers of lines and whose relations mention the same things in the same order have
the same route graph, apart from the names of ports. -/
theorem same_roads {q : Queue} {QI : List Entry → Prop} (hq : q.Lawful QI) (a b : Module)
    (ha : (placeNodes a.intoMir).2.size.height ≤ 1000000000) (hb : (placeNodes b.intoMir).2.size.height ≤ 1000000000)
    (hns : lineNumbers (definitions a.entries) = lineNumbers (definitions b.entries))
    (hms : mentions (connections [] a.entries) = mentions (connections [] b.entries))
    (da db : Document) {g1 g2 : RouteGraph} (hg1 : SceneGraph (laidOut a.intoMir) g1) (hg2 : SceneGraph (laidOut b.intoMir) g2)
    (hda : drawEdgePath q (laidOut a.intoMir) .new = .ok (da, connectNearest (laidOut a.intoMir) g1))
    (hdb : drawEdgePath q (laidOut b.intoMir) .new = .ok (db, connectNearest (laidOut b.intoMir) g2)) :
    SameRoads (connectNearest (laidOut a.intoMir) g1) (connectNearest (laidOut b.intoMir) g2) := by
  have hnodes : (connectNearest (laidOut a.intoMir) g1).nodes = (connectNearest (laidOut b.intoMir) g2).nodes := by
    rw [(C66_road_map hq a ha da _ hda).1, (C66_road_map hq b hb db _ hdb).1, hns, places_mentions _ hms]
  have hn : g1.nodes = g2.nodes := by rw [← (connect_nodes (laidOut a.intoMir) g1).1, hnodes, (connect_nodes _ g2).1]
  have hrect : shapeRects (laidOut a.intoMir) = shapeRects (laidOut b.intoMir) := by
    rw [shapeRects_eq (drawable_intoMir a), shapeRects_eq (drawable_intoMir b), lineCounts_intoMir, lineCounts_intoMir]
    exact congrArg tableRects hns
  exact SameRoads.connect ⟨hn, by rw [hg1.edges, hg2.edges]⟩ hrect

/-- Two modules whose tables have the same numbers of lines and whose relations mention the same things in the same order
draw a relation between the same things along the same path. -/
theorem alike_paths {q : Queue} {QI : List Entry → Prop} (hq : q.Lawful QI) (a b : Module)
    (ha : (placeNodes a.intoMir).2.size.height ≤ 1000000000) (hb : (placeNodes b.intoMir).2.size.height ≤ 1000000000)
    (hns : lineNumbers (definitions a.entries) = lineNumbers (definitions b.entries))
    (hms : mentions (connections [] a.entries) = mentions (connections [] b.entries))
    (da db : Document) (ga gb : RouteGraph)
    (hda : drawEdgePath q (laidOut a.intoMir) .new = .ok (da, ga)) (hdb : drawEdgePath q (laidOut b.intoMir) .new = .ok (db, gb))
    (i j : Nat) (c : NodeRef × NodeRef) (e e' : EdgeData)
    (hi : (connections [] a.entries)[i]? = some c) (hj : (connections [] b.entries)[j]? = some c)
    (he : da.edges[i]? = some e) (he' : db.edges[j]? = some e') : e.pathPoints = e'.pathPoints := by
  obtain ⟨g1, hg1, rfl, h1⟩ := draw_paths hq a ha da ga hda
  obtain ⟨g2, hg2, rfl, h2⟩ := draw_paths hq b hb db gb hdb
  have get : ∀ {R : NodeRef × NodeRef → EdgeData → Prop} {cs : List (NodeRef × NodeRef)} {es : List EdgeData} {k : Nat} {x : EdgeData},
      List.Forall₂ R cs es → cs[k]? = some c → es[k]? = some x → R c x := by
    intro R cs es k x h hk hx
    obtain ⟨l1, e1⟩ := List.getElem?_eq_some_iff.mp hk
    obtain ⟨l2, e2⟩ := List.getElem?_eq_some_iff.mp hx
    have := (List.forall₂_iff_get.mp h).2 k l1 l2
    rwa [List.get_eq_getElem, List.get_eq_getElem, e1, e2] at this
  obtain ⟨s1, t1, ⟨x1, m1, sx1, tx1⟩, f1⟩ := get h1 hi he
  obtain ⟨s2, t2, ⟨x2, m2, sx2, tx2⟩, f2⟩ := get h2 hj he'
  have hroads := same_roads hq a b ha hb hns hms da db hg1 hg2 hda hdb
  have hn : g1.nodes = g2.nodes := by rw [← (connect_nodes (laidOut a.intoMir) g1).1, hroads.1, (connect_nodes _ g2).1]
  have hports : ∀ p ∈ portsOfEdges (laidOut a.intoMir), ∀ p' ∈ portsOfEdges (laidOut b.intoMir), p.location = p'.location →
      (connectNearest (laidOut a.intoMir) g1).getTerminalPort p.id = (connectNearest (laidOut b.intoMir) g2).getTerminalPort p'.id := by
    intro p hp p' hp' hl
    obtain ⟨u, u1, u2⟩ := hg1.ports p hp
    obtain ⟨v, v1, v2⟩ := hg2.ports p' hp'
    have huv : u = v := node_unique hg2.wf (by rw [← hn]; exact u2) v2 hl
    simp only [RouteGraph.getTerminalPort] at u1 v1 ⊢
    rw [(connect_nodes _ g1).2, (connect_nodes _ g2).2, u1, v1, huv]
  have nodeAt : ∀ (m : Module) (r : NodeRef) (k : NodeId), nodeOf m.intoMir r = some k →
      ∃ n, (laidOut m.intoMir).nodes[k]? = some n ∧
        n.terminalPorts.map (fun p => (p.location, p.orientation)) = endsOf (lineNumbers (definitions m.entries)) r := by
    intro m r k hk
    have hp := portsOf_ref m r k hk
    cases hx : (laidOut m.intoMir).nodes[k]? with
    | some n => exact ⟨n, rfl, by rw [← hp, portsOf, hx]⟩
    | none =>
      rw [portsOf, hx] at hp
      cases r with
      | table k => simp [endsOf, sidesOf] at hp
      | column k j => simp only [endsOf, sidesOf] at hp; split at hp <;> simp at hp
  obtain ⟨ns1, as1, ps1⟩ := nodeAt a _ _ s1
  obtain ⟨nt1, at1, pt1⟩ := nodeAt a _ _ t1
  obtain ⟨ns2, as2, ps2⟩ := nodeAt b _ _ s2
  obtain ⟨nt2, at2, pt2⟩ := nodeAt b _ _ t2
  have same : ∀ {l l' : List TerminalPort}, l.map (fun p => (p.location, p.orientation)) = l'.map (fun p => (p.location, p.orientation)) →
      (∀ p ∈ l, p ∈ portsOfEdges (laidOut a.intoMir)) → (∀ p ∈ l', p ∈ portsOfEdges (laidOut b.intoMir)) →
      List.Forall₂ (fun p p' => (connectNearest (laidOut a.intoMir) g1).getTerminalPort p.id =
        (connectNearest (laidOut b.intoMir) g2).getTerminalPort p'.id) l l' := by
    intro l
    induction l with
    | nil =>
      intro l' h _ _
      cases l' with
      | nil => exact .nil
      | cons p' l' => simp at h
    | cons p l ih =>
      intro l' h hl hl'
      cases l' with
      | nil => simp at h
      | cons p' l' =>
        simp only [List.map_cons, List.cons.injEq, Prod.mk.injEq] at h
        exact .cons (hports p (hl p (by simp)) p' (hl' p' (by simp)) h.1.1)
          (ih h.2 (fun x hx => hl x (by simp [hx])) fun x hx => hl' x (by simp [hx]))
  have ss := same (ps1.trans ((by rw [hns]) : _ = _) |>.trans ps2.symm)
    (fun p hp => EdgeEnds.mem_ports m1 (by rw [sx1]; exact as1) (by rw [tx1]; exact at1) (Or.inl hp))
    (fun p hp => EdgeEnds.mem_ports m2 (by rw [sx2]; exact as2) (by rw [tx2]; exact at2) (Or.inl hp))
  have tt := same (pt1.trans ((by rw [hns]) : _ = _) |>.trans pt2.symm)
    (fun p hp => EdgeEnds.mem_ports m1 (by rw [sx1]; exact as1) (by rw [tx1]; exact at1) (Or.inr hp))
    (fun p hp => EdgeEnds.mem_ports m2 (by rw [sx2]; exact as2) (by rw [tx2]; exact at2) (Or.inr hp))
  have hpairs : List.Forall₂ (fun x y => (connectNearest (laidOut a.intoMir) g1).getTerminalPort x.1.id =
        (connectNearest (laidOut b.intoMir) g2).getTerminalPort y.1.id ∧
      (connectNearest (laidOut a.intoMir) g1).getTerminalPort x.2.id = (connectNearest (laidOut b.intoMir) g2).getTerminalPort y.2.id)
      (portPairs ns1 nt1) (portPairs ns2 nt2) := by
    unfold portPairs
    revert ss
    generalize ns1.terminalPorts = l
    generalize ns2.terminalPorts = l'
    intro ss
    induction ss with
    | nil => exact .nil
    | cons hx _ ih =>
      rw [List.flatMap_cons, List.flatMap_cons]
      refine List.rel_append ?_ ih
      rw [List.forall₂_map_left_iff, List.forall₂_map_right_iff]
      exact tt.imp fun _ _ h => ⟨hx, h⟩
  have hf : findShortestEdgesPath q (laidOut a.intoMir) (connectNearest (laidOut a.intoMir) g1) e =
      findShortestEdgesPath q (laidOut b.intoMir) (connectNearest (laidOut b.intoMir) g2) e' := by
    unfold findShortestEdgesPath Document.getNode
    rw [as1, at1, as2, at2]
    simp only [hroads.best q hpairs, hroads.locations]
  rw [f1, f2] at hf
  simpa using hf

/-! ## C72 -/

/-- **C72, the part that holds.** The full property, that the order in which relations are written does not influence how they
are drawn, is false (`C72_refuted`).  What holds: only the numbers of lines of the tables and the order in which tables and
columns are first mentioned in relations matter.  If these agree for two modules, a relation that both have is drawn along the
same path, wherever it stands and whatever the other relations are. -/
theorem C72_relation_order_partial {q : Queue} {QI : List Entry → Prop} (hq : q.Lawful QI) (a b : Module)
    (ha : (placeNodes a.intoMir).2.size.height ≤ 1000000000) (hb : (placeNodes b.intoMir).2.size.height ≤ 1000000000)
    (hns : lineNumbers (definitions a.entries) = lineNumbers (definitions b.entries))
    (hms : mentions (connections [] a.entries) = mentions (connections [] b.entries)) :
    ∃ da ga db gb, drawEdgePath q (laidOut a.intoMir) .new = .ok (da, ga) ∧ drawEdgePath q (laidOut b.intoMir) .new = .ok (db, gb) ∧
      ga.nodes = gb.nodes ∧ ga.edges = gb.edges ∧
      ∀ (i j : Nat) (c : NodeRef × NodeRef), (connections [] a.entries)[i]? = some c → (connections [] b.entries)[j]? = some c →
        ∃ e e' ps, da.edges[i]? = some e ∧ db.edges[j]? = some e' ∧ e.pathPoints = some ps ∧ e'.pathPoints = some ps := by
  obtain ⟨da, ga, hda, -, -, hpa, hma⟩ := drawn_connections hq a ha
  obtain ⟨db, gb, hdb, -, -, -, hmb⟩ := drawn_connections hq b hb
  have hroads : ga.nodes = gb.nodes ∧ ga.edges = gb.edges := by
    obtain ⟨g1, hg1, rfl, -⟩ := draw_paths hq a ha da ga hda
    obtain ⟨g2, hg2, rfl, -⟩ := draw_paths hq b hb db gb hdb
    exact same_roads hq a b ha hb hns hms da db hg1 hg2 hda hdb
  refine ⟨da, ga, db, gb, hda, hdb, hroads.1, hroads.2, ?_⟩
  intro i j c hi hj
  have get : ∀ {m : Module} {d : Document} {k : Nat}, d.edges.map (fun e => (some e.sourceId, some e.targetId)) =
        (connections [] m.entries).map (fun c => (nodeOf m.intoMir c.1, nodeOf m.intoMir c.2)) →
      (connections [] m.entries)[k]? = some c → ∃ e, d.edges[k]? = some e := by
    intro m d k h hk
    have := congrArg (fun l => l[k]?) h
    simp only [List.getElem?_map, hk, Option.map_some, Option.map_eq_some_iff] at this
    obtain ⟨e, he, -⟩ := this
    exact ⟨e, he⟩
  obtain ⟨e, he⟩ := get hma hi
  obtain ⟨e', he'⟩ := get hmb hj
  obtain ⟨ps, hps, -⟩ := hpa e (List.mem_of_getElem? he)
  exact ⟨e, e', ps, he, he', hps, by rw [← hps, alike_paths hq a b ha hb hns hms da db ga gb hda hdb i j c e e' hi hj he he']⟩

theorem blocks_unique {es : List EdgeData} {l l' : List (List Element)}
    (h : List.Forall₂ (fun e b => drawEdgeConnection e = .ok b) es l)
    (h' : List.Forall₂ (fun e b => drawEdgeConnection e = .ok b) es l') : l = l' := by
  induction h generalizing l' with
  | nil => cases h'; rfl
  | cons h1 _ ih =>
    cases h' with
    | cons h3 h4 =>
      rw [h1] at h3
      cases h3
      rw [ih h4]

/-- **C72, the part that holds, for drawings.** If all relations of the module `a` are among those of `b`, which has tables of
the same sizes and mentions the same tables and columns in the same order, and `b` is drawn, then `a` is drawn, and every relation
is drawn by the same elements in both. -/
theorem C72_same_relations_partial {q : Queue} {QI : List Entry → Prop} (hq : q.Lawful QI) (a b : Module)
    (hne : definitions a.entries ≠ []) (hsize : picHeight (lineNumbers (definitions a.entries)) ≤ 1000000000)
    (hns : lineNumbers (definitions a.entries) = lineNumbers (definitions b.entries))
    (hms : mentions (connections [] a.entries) = mentions (connections [] b.entries))
    (hsub : ∀ c ∈ connections [] a.entries, c ∈ connections [] b.entries) (el : Element) (hel : drawModule q b = .ok el) :
    ∃ f : NodeRef × NodeRef → List Element,
      el = picture (definitions b.entries) ((connections [] b.entries).flatMap f) ∧
      drawModule q a = .ok (picture (definitions a.entries) ((connections [] a.entries).flatMap f)) := by
  have hne' : definitions b.entries ≠ [] := by
    intro h0
    rw [h0, lineNumbers, lineNumbers, List.map_nil, List.map_eq_nil_iff] at hns
    exact hne hns
  obtain ⟨ha, hpa⟩ := picture_blocks hq a hne hsize
  obtain ⟨hb, hpb⟩ := picture_blocks hq b hne' (by rw [← hns]; exact hsize)
  obtain ⟨da, ga, hda, hna, hba, -, hma⟩ := drawn_connections hq a ha
  obtain ⟨db, gb, hdb, hnb, hbb, -, hmb⟩ := drawn_connections hq b hb
  obtain ⟨bs, hbs, hpic⟩ := hpb el hel db gb hdb
  have hlb : (connections [] b.entries).length = db.edges.length := by simpa using (congrArg List.length hmb).symm
  have hla : (connections [] a.entries).length = da.edges.length := by simpa using (congrArg List.length hma).symm
  have hlbs := hbs.length_eq
  -- edges with the same ends are drawn alike
  have hdraw : ∀ {x y : EdgeData}, x.pathPoints = y.pathPoints → ∀ l, drawEdgeConnection y = .ok l → drawEdgeConnection x = .ok l := by
    intro x y hxy l hl
    obtain ⟨ps, d, p, z, h1, h2, h3, h4, rfl⟩ := drawEdge_ok hl
    unfold drawEdgeConnection
    rw [hxy, h1]
    simp only [h2, h3, h4]
  have hex : ∀ c : NodeRef × NodeRef, ∃ l : List Element, c ∈ connections [] b.entries →
      ∃ (j : Nat) (e : EdgeData), db.edges[j]? = some e ∧ drawEdgeConnection e = .ok l ∧ (connections [] b.entries)[j]? = some c := by
    intro c
    by_cases hc : c ∈ connections [] b.entries
    · obtain ⟨j, hj, rfl⟩ := List.getElem_of_mem hc
      exact ⟨bs[j]'(by omega), fun _ => ⟨j, db.edges[j]'(by omega), List.getElem?_eq_getElem _,
        (List.forall₂_iff_get.mp hbs).2 j (by omega) (by omega), List.getElem?_eq_getElem _⟩⟩
    · exact ⟨[], fun h => absurd h hc⟩
  choose f hf using hex
  have hblocks : ∀ (m : Module) (d : Document) (g : RouteGraph), drawEdgePath q (laidOut m.intoMir) .new = .ok (d, g) →
      (placeNodes m.intoMir).2.size.height ≤ 1000000000 →
      lineNumbers (definitions m.entries) = lineNumbers (definitions b.entries) →
      mentions (connections [] m.entries) = mentions (connections [] b.entries) →
      (connections [] m.entries).length = d.edges.length →
      (∀ c ∈ connections [] m.entries, c ∈ connections [] b.entries) →
      List.Forall₂ (fun e b => drawEdgeConnection e = .ok b) d.edges ((connections [] m.entries).map f) := by
    intro m d g hd hm h1 h2 h3 h4
    rw [List.forall₂_iff_get]
    refine ⟨by simpa using h3.symm, ?_⟩
    intro i hi hi'
    have hc : (connections [] m.entries)[i]? = some (connections [] m.entries)[i] := List.getElem?_eq_getElem (by omega)
    obtain ⟨j, e, he, hde, hj⟩ := hf _ (h4 _ (List.mem_of_getElem? hc))
    simp only [List.get_eq_getElem, List.getElem_map]
    exact hdraw (alike_paths hq m b hm hb h1 h2 d db g gb hd hdb i _ _ _ e hc hj (List.getElem?_eq_getElem hi) he) _ hde
  have hB := hblocks b db gb hdb hb rfl rfl hlb fun _ h => h
  have hbs' : bs = (connections [] b.entries).map f := blocks_unique hbs hB
  refine ⟨f, by rw [hpic, hbs', List.flatMap_def], ?_⟩
  have hA := hblocks a da ga hda ha hns hms hla hsub
  have hok : ∃ x, drawModule q a = .ok x := by
    rw [drawModule_eq, hda]
    simp only
    rw [C42_ok_exact]
    refine ⟨by rw [unplaced_congr hna (by rw [hba, (laidOut_rest a.intoMir).2.1]), unplaced_laidOut (drawable_intoMir a).tabular], ?_⟩
    intro e he
    obtain ⟨l, hl⟩ : ∃ l, drawEdgeConnection e = .ok l := by
      obtain ⟨i, hi, rfl⟩ := List.getElem_of_mem he
      exact ⟨_, (List.forall₂_iff_get.mp hA).2 i hi (by rw [← hA.length_eq]; exact hi)⟩
    obtain ⟨ps, d, p, z, h1, h2, h3, h4, -⟩ := drawEdge_ok hl
    exact ⟨ps, d, h1, h2⟩
  obtain ⟨x, hx⟩ := hok
  obtain ⟨bs', hbs2, hx2⟩ := hpa x hx da ga hda
  rw [hx, hx2, blocks_unique hbs2 hA, List.flatMap_def]

/-- **C72.** Relations between the same two ends, in the same direction, are drawn one over the other: their paths are equal. -/
theorem C72_repeated_relation {q : Queue} {QI : List Entry → Prop} (hq : q.Lawful QI) (m : Module)
    (hsize : (placeNodes m.intoMir).2.size.height ≤ 1000000000) (d : Document) (g : RouteGraph)
    (h : drawEdgePath q (laidOut m.intoMir) .new = .ok (d, g)) (i j : Nat) (c : NodeRef × NodeRef)
    (hi : (connections [] m.entries)[i]? = some c) (hj : (connections [] m.entries)[j]? = some c) :
    ∃ e e' ps, d.edges[i]? = some e ∧ d.edges[j]? = some e' ∧ e.pathPoints = some ps ∧ e'.pathPoints = some ps := by
  obtain ⟨da, ga, db, gb, h1, h2, -, -, h3⟩ := C72_relation_order_partial hq m m hsize hsize rfl rfl
  rw [h] at h1 h2
  cases h1
  cases h2
  exact h3 i j c hi hj

/-- Seven tables in three rows, three of them with one column, and the given relations. -/
def sevenTables (rs : List ModuleEntry) : Module :=
  ⟨none, [.definition ⟨c!"a", [⟨c!"x", .int, none⟩]⟩, .definition ⟨c!"b", []⟩, .definition ⟨c!"c", []⟩,
    .definition ⟨c!"d", [⟨c!"x", .int, none⟩]⟩, .definition ⟨c!"e", []⟩, .definition ⟨c!"f", []⟩,
    .definition ⟨c!"g", [⟨c!"x", .int, none⟩]⟩] ++ rs⟩

set_option maxRecDepth 1000000 in
/-- **C72 is false as stated**: the same tables and the same two relations, in one order they are drawn, in the other drawing
panics. -/
theorem C72_refuted : ∃ r r' : ModuleEntry,
    (drawModule BinHeap.queue (sevenTables [r, r'])).toOption.isSome = true ∧
    panicOf (drawModule BinHeap.queue (sevenTables [r', r])) = some (.turnaround 2) :=
  ⟨.relation ⟨.field c!"g" c!"x", .entity c!"f"⟩, .relation ⟨.entity c!"a", .field c!"d" c!"x"⟩,
    by decide +kernel, by decide +kernel⟩

/-! Two modules meeting the hypotheses: the second lists the relations in another order, without changing the order of the first
mentions, and leaves one out. -/

/-- Four relations between three of the tables; the last one is written twice. -/
private def ex : Module := sevenTables [.relation ⟨.field c!"a" c!"x", .entity c!"b"⟩, .relation ⟨.entity c!"b", .field c!"g" c!"x"⟩,
  .relation ⟨.field c!"a" c!"x", .field c!"g" c!"x"⟩, .relation ⟨.field c!"a" c!"x", .field c!"g" c!"x"⟩]

/-- Three relations. -/
private def ex' : Module := sevenTables [.relation ⟨.field c!"a" c!"x", .entity c!"b"⟩,
  .relation ⟨.field c!"a" c!"x", .field c!"g" c!"x"⟩, .relation ⟨.entity c!"b", .field c!"g" c!"x"⟩]

set_option maxRecDepth 1000000 in
example : lineNumbers (definitions ex'.entries) = lineNumbers (definitions ex.entries) ∧
    mentions (connections [] ex'.entries) = mentions (connections [] ex.entries) ∧
    connections [] ex.entries = [(.column 0 0, .table 1), (.table 1, .column 6 0), (.column 0 0, .column 6 0), (.column 0 0, .column 6 0)] ∧
    connections [] ex'.entries = [(.column 0 0, .table 1), (.column 0 0, .column 6 0), (.table 1, .column 6 0)] ∧
    (∀ c ∈ connections [] ex'.entries, c ∈ connections [] ex.entries) ∧ definitions ex'.entries ≠ [] ∧
    picHeight (lineNumbers (definitions ex'.entries)) ≤ 1000000000 ∧ (placeNodes ex'.intoMir).2.size.height ≤ 1000000000 ∧
    (placeNodes ex.intoMir).2.size.height ≤ 1000000000 ∧
    (drawModule BinHeap.queue ex).toOption.isSome = true := by decide +kernel

/-- The relations of `C72_refuted` mention the same ends, in different orders. -/
example : mentions [(.column 6 0, .table 5), (.table 0, .column 3 0)] ≠ mentions [(.table 0, .column 3 0), (.column 6 0, .table 5)] := by
  decide +kernel

end Seiren
