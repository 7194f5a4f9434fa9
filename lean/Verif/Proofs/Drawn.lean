import Verif.Proofs.SceneReach
import Verif.Props.Search
/-! # What `draw_edge_path` returns -/

namespace Seiren
open Spec

/-- The nodes registered for two ports. -/
def NodesOf (g : RouteGraph) (pr : TerminalPort × TerminalPort) (i j : RouteNodeId) : Prop :=
  g.getTerminalPort pr.1.id = some i ∧ g.getTerminalPort pr.2.id = some j

theorem bestPath_spec {q : Queue} {QI : List Entry → Prop} (hq : q.Lawful QI) (g : RouteGraph) (hg : WellFormed g)
    (pairs : List (TerminalPort × TerminalPort)) (cost : Nat) (path : Option (List RouteNodeId))
    (hall : ∀ pr ∈ pairs, ∃ i j, NodesOf g pr i j ∧ i < g.nodes.length ∧ ∃ p c, Walk g (edgeCost g) i p c j) :
    (bestPath q g pairs cost path = .ok path ∧
      ∀ pr ∈ pairs, ∀ i j, NodesOf g pr i j → ∀ p c, Walk g (edgeCost g) i p c j → cost ≤ c) ∨
    (∃ p c, bestPath q g pairs cost path = .ok (some p) ∧ c < cost ∧
      (∃ (k : Nat) (pr : TerminalPort × TerminalPort), pairs[k]? = some pr ∧ (∃ i j, NodesOf g pr i j ∧ Walk g (edgeCost g) i p c j ∧ p.Nodup) ∧
        ∀ (k' : Nat) (pr' : TerminalPort × TerminalPort), k' < k → pairs[k']? = some pr' → ∀ i j, NodesOf g pr' i j → ∀ p' c', Walk g (edgeCost g) i p' c' j → c < c') ∧
      ∀ pr ∈ pairs, ∀ i j, NodesOf g pr i j → ∀ p' c', Walk g (edgeCost g) i p' c' j → c ≤ c') := by
  induction pairs generalizing cost path with
  | nil => left; exact ⟨rfl, by simp⟩
  | cons pr pairs ih =>
    obtain ⟨src, dst⟩ := pr
    obtain ⟨i, j, ⟨hi, hj⟩, hlt, pw, cw, hw⟩ := hall (src, dst) (by simp)
    simp only at hi hj
    have hall' : ∀ pr ∈ pairs, ∃ i j, NodesOf g pr i j ∧ i < g.nodes.length ∧ ∃ p c, Walk g (edgeCost g) i p c j :=
      fun pr hpr => hall pr (by simp [hpr])
    rcases C30_search_correct hq g hg.ends (edgeCost g) i j hlt with ⟨-, hno⟩ | ⟨c, p, hr, hwp, hnd, hmin⟩
    · exact absurd ⟨pw, cw, hw⟩ hno
    · have hthis : ∀ i' j', NodesOf g (src, dst) i' j' → ∀ p' c', Walk g (edgeCost g) i' p' c' j' → c ≤ c' := by
        rintro i' j' ⟨h1, h2⟩ p' c' hw'
        simp only at h1 h2
        rw [hi] at h1; rw [hj] at h2
        cases h1; cases h2
        exact hmin p' c' hw'
      simp only [bestPath, hi, hj, computeShortestPath, hr]
      by_cases hc : c < cost
      · rw [if_pos hc]
        right
        rcases ih c (some p) hall' with ⟨h1, h2⟩ | ⟨p2, c2, h1, h2, ⟨k, pr, hpr, h3, h5⟩, h4⟩
        · refine ⟨p, c, h1, hc, ⟨0, (src, dst), rfl, ⟨i, j, ⟨hi, hj⟩, hwp, hnd⟩, by omega⟩, ?_⟩
          intro pr hpr
          rw [List.mem_cons] at hpr
          rcases hpr with rfl | hpr
          · exact hthis
          · exact h2 pr hpr
        · refine ⟨p2, c2, h1, by omega, ⟨k + 1, pr, by simpa using hpr, h3, ?_⟩, ?_⟩
          · intro k' pr' hk' hpr' i' j' hn p' c' hw'
            cases k' with
            | zero =>
              simp only [List.getElem?_cons_zero, Option.some.injEq] at hpr'
              subst hpr'
              exact Nat.lt_of_lt_of_le h2 (hthis i' j' hn p' c' hw')
            | succ k' => exact h5 k' pr' (by omega) (by simpa using hpr') i' j' hn p' c' hw'
          intro pr' hpr'
          rw [List.mem_cons] at hpr'
          rcases hpr' with rfl | hpr'
          · intro i' j' hn p' c' hw'
            exact Nat.le_trans (Nat.le_of_lt h2) (hthis i' j' hn p' c' hw')
          · exact h4 pr' hpr'
      · rw [if_neg hc]
        rcases ih cost path hall' with ⟨h1, h2⟩ | ⟨p2, c2, h1, h2, ⟨k, pr, hpr, h3, h5⟩, h4⟩
        · left
          refine ⟨h1, ?_⟩
          intro pr hpr
          rw [List.mem_cons] at hpr
          rcases hpr with rfl | hpr
          · intro i' j' hn p' c' hw'
            exact Nat.le_trans (by omega) (hthis i' j' hn p' c' hw')
          · exact h2 pr hpr
        · right
          refine ⟨p2, c2, h1, h2, ⟨k + 1, pr, by simpa using hpr, h3, ?_⟩, ?_⟩
          · intro k' pr' hk' hpr' i' j' hn p' c' hw'
            cases k' with
            | zero =>
              simp only [List.getElem?_cons_zero, Option.some.injEq] at hpr'
              subst hpr'
              exact Nat.lt_of_lt_of_le (by omega) (hthis i' j' hn p' c' hw')
            | succ k' => exact h5 k' pr' (by omega) (by simpa using hpr') i' j' hn p' c' hw'
          intro pr' hpr'
          rw [List.mem_cons] at hpr'
          rcases hpr' with rfl | hpr'
          · intro i' j' hn p' c' hw'
            exact Nat.le_trans (by omega) (hthis i' j' hn p' c' hw')
          · exact h4 pr' hpr'

/-- The points `ps` are the locations of the nodes `w`. -/
def Spec.Locations (g : RouteGraph) (w : List RouteNodeId) (ps : List Point) : Prop :=
  List.Forall₂ (fun i p => ∃ n : RouteNodeData, g.nodes[i]? = some n ∧ n.location = p) w ps

theorem pathLocations_ok (g : RouteGraph) (w : List RouteNodeId) (h : ∀ i ∈ w, i < g.nodes.length) :
    ∃ ps, pathLocations g w = .ok ps ∧ Locations g w ps := by
  induction w with
  | nil => exact ⟨[], rfl, List.Forall₂.nil⟩
  | cons i w ih =>
    obtain ⟨ps, h1, h2⟩ := ih fun j hj => h j (by simp [hj])
    obtain ⟨n, hi⟩ : ∃ n, g.nodes[i]? = some n := ⟨_, List.getElem?_eq_getElem (h i (by simp))⟩
    refine ⟨n.location :: ps, ?_, List.Forall₂.cons ⟨_, hi, rfl⟩ h2⟩
    simp only [pathLocations, RouteGraph.getNode, hi, h1]

/-- What is known of the path of an edge. -/
structure Spec.Routed (doc : Document) (g : RouteGraph) (e : EdgeData) (ps : List Point) : Prop where
  path : ∃ s t : NodeData, doc.nodes[e.sourceId]? = some s ∧ doc.nodes[e.targetId]? = some t ∧
    ∃ p ∈ s.terminalPorts, ∃ r ∈ t.terminalPorts, ∃ (i j : RouteNodeId) (w : List RouteNodeId) (c : Nat),
      g.nodes[i]? = some ⟨p.location, some p.orientation⟩ ∧ g.nodes[j]? = some ⟨r.location, some r.orientation⟩ ∧
      Walk g (edgeCost g) i w c j ∧ w.Nodup ∧ Locations g w ps ∧
      (∀ p' ∈ s.terminalPorts, ∀ r' ∈ t.terminalPorts, ∀ (i' j' : RouteNodeId),
        g.nodes[i']? = some ⟨p'.location, some p'.orientation⟩ → g.nodes[j']? = some ⟨r'.location, some r'.orientation⟩ →
        ∀ w' c', Walk g (edgeCost g) i' w' c' j' → c ≤ c') ∧
      ∃ k : Nat, (portPairs s t)[k]? = some (p, r) ∧ ∀ (k' : Nat) (pr' : TerminalPort × TerminalPort), k' < k → (portPairs s t)[k']? = some pr' →
        ∀ (i' j' : RouteNodeId),
        g.nodes[i']? = some ⟨pr'.1.location, some pr'.1.orientation⟩ → g.nodes[j']? = some ⟨pr'.2.location, some pr'.2.orientation⟩ →
        ∀ w' c', Walk g (edgeCost g) i' w' c' j' → c < c'

theorem node_unique {g : RouteGraph} (hg : WellFormed g) {i j : RouteNodeId} {n m : RouteNodeData} (hi : g.nodes[i]? = some n)
    (hj : g.nodes[j]? = some m) (h : n.location = m.location) : i = j := by
  have e1 : (g.nodes.map (·.location))[i]? = some n.location := by simp [hi]
  have e2 : (g.nodes.map (·.location))[j]? = some n.location := by simp [hj, h]
  have hlt : i < (g.nodes.map (·.location)).length := (List.getElem?_eq_some_iff.mp e1).1
  exact (List.getElem?_inj hlt hg.locations).mp (e1.trans e2.symm)

/-- The ends of an edge exist and have ports. -/
def EdgeEnds (doc : Document) (e : EdgeData) : Prop :=
  ∃ s t : NodeData, doc.nodes[e.sourceId]? = some s ∧ doc.nodes[e.targetId]? = some t ∧ s.terminalPorts ≠ [] ∧ t.terminalPorts ≠ []

theorem EdgeEnds.mem_ports {doc : Document} {e : EdgeData} (he : e ∈ doc.edges) {s t : NodeData}
    (hs : doc.nodes[e.sourceId]? = some s) (ht : doc.nodes[e.targetId]? = some t) {p : TerminalPort}
    (hp : p ∈ s.terminalPorts ∨ p ∈ t.terminalPorts) : p ∈ portsOfEdges doc := by
  unfold portsOfEdges
  rw [List.mem_flatMap]
  refine ⟨e, he, ?_⟩
  simp only [edgePorts, Document.getNode, hs, ht, List.mem_append]
  exact hp

theorem find_ok {q : Queue} {QI : List Entry → Prop} (hq : q.Lawful QI) {ns : List Nat} {doc : Document} (h : Scene ns doc)
    {g : RouteGraph} (hg : SceneGraph doc g) (e : EdgeData) (he : e ∈ doc.edges) (hends : EdgeEnds doc e) :
    ∃ ps, findShortestEdgesPath q doc (connectNearest doc g) e = .ok (some ps) ∧ Routed doc (connectNearest doc g) e ps := by
  obtain ⟨s, t, hs, ht, hsp, htp⟩ := hends
  set G := connectNearest doc g with hG
  have hwf : WellFormed G := connect_wellFormed doc g hg.wf
  have hnodes : G.nodes = g.nodes := (connect_nodes doc g).1
  have hports : G.terminalPorts = g.terminalPorts := (connect_nodes doc g).2
  have hlook : ∀ p ∈ portsOfEdges doc, ∃ i, G.getTerminalPort p.id = some i ∧ G.nodes[i]? = some ⟨p.location, some p.orientation⟩ := by
    intro p hp
    obtain ⟨i, h1, h2⟩ := hg.ports p hp
    refine ⟨i, ?_, by rw [hnodes]; exact h2⟩
    unfold RouteGraph.getTerminalPort at h1 ⊢
    rw [hports]; exact h1
  have hmemp : ∀ p, p ∈ s.terminalPorts ∨ p ∈ t.terminalPorts → p ∈ portsOfEdges doc := fun p hp => EdgeEnds.mem_ports he hs ht hp
  have hpair : ∀ pr, pr ∈ portPairs s t ↔ pr.1 ∈ s.terminalPorts ∧ pr.2 ∈ t.terminalPorts := by
    rintro ⟨a, b⟩
    simp only [portPairs, List.mem_flatMap, List.mem_map, Prod.mk.injEq]
    constructor
    · rintro ⟨a', ha', b', hb', rfl, rfl⟩; exact ⟨ha', hb'⟩
    · rintro ⟨ha, hb⟩; exact ⟨a, ha, b, hb, rfl, rfl⟩
  have hall : ∀ pr ∈ portPairs s t, ∃ i j, NodesOf G pr i j ∧ i < G.nodes.length ∧ ∃ p c, Walk G (edgeCost G) i p c j ∧ c < ROUTE_COST_MAX := by
    intro pr hpr
    rw [hpair] at hpr
    obtain ⟨i, h1, h2⟩ := hlook pr.1 (hmemp _ (Or.inl hpr.1))
    obtain ⟨j, h3, h4⟩ := hlook pr.2 (hmemp _ (Or.inr hpr.2))
    refine ⟨i, j, ⟨h1, h3⟩, (List.getElem?_eq_some_iff.mp h2).1, ?_⟩
    have hr := h.ports_reach hg (hmemp _ (Or.inl hpr.1)) (hmemp _ (Or.inr hpr.2)) (by rw [← hnodes]; exact h2) (by rw [← hnodes]; exact h4)
    obtain ⟨p, c, hw, hc⟩ := hr
    refine ⟨p, c, hw, ?_⟩
    have : c ≤ 2000003000 := by exact_mod_cast hc
    unfold ROUTE_COST_MAX
    omega
  have hbest := bestPath_spec hq G hwf (portPairs s t) ROUTE_COST_MAX none (by
    intro pr hpr
    obtain ⟨i, j, h1, h2, p, c, h3, -⟩ := hall pr hpr
    exact ⟨i, j, h1, h2, p, c, h3⟩)
  rcases hbest with ⟨-, hno⟩ | ⟨w, c, hb, -, ⟨k, pr, hk, ⟨i, j, hn, hw, hnd⟩, hfirst⟩, hmin⟩
  · exfalso
    obtain ⟨p, hp⟩ := List.exists_mem_of_ne_nil _ hsp
    obtain ⟨r, hr⟩ := List.exists_mem_of_ne_nil _ htp
    have hpr : (p, r) ∈ portPairs s t := (hpair _).mpr ⟨hp, hr⟩
    obtain ⟨i, j, h1, -, w, c, h3, h4⟩ := hall _ hpr
    have := hno _ hpr i j h1 w c h3
    omega
  · have hpr' := (hpair pr).mp (List.mem_of_getElem? hk)
    obtain ⟨i', h1, h2⟩ := hlook pr.1 (hmemp _ (Or.inl hpr'.1))
    obtain ⟨j', h3, h4⟩ := hlook pr.2 (hmemp _ (Or.inr hpr'.2))
    have hi : i = i' := by have := hn.1; rw [h1] at this; exact (Option.some.inj this).symm
    have hj : j = j' := by have := hn.2; rw [h3] at this; exact (Option.some.inj this).symm
    subst hi hj
    have hi_lt : i < G.nodes.length := (List.getElem?_eq_some_iff.mp h2).1
    obtain ⟨ps, hps, hloc⟩ := pathLocations_ok G w (fun k hk => walk_nodes G (edgeCost G) i hwf.ends hi_lt hw k hk)
    refine ⟨ps, ?_, s, t, hs, ht, pr.1, hpr'.1, pr.2, hpr'.2, i, j, w, c, h2, h4, hw, hnd, hloc, ?_, k, hk, ?_⟩
    · simp only [findShortestEdgesPath, Document.getNode, hs, ht, hb, hps]
    · intro p' hp' r' hr' a b ha hb' w' c' hw'
      have hpr2 : (p', r') ∈ portPairs s t := (hpair _).mpr ⟨hp', hr'⟩
      obtain ⟨a', h5, h6⟩ := hlook p' (hmemp _ (Or.inl hp'))
      obtain ⟨b', h7, h8⟩ := hlook r' (hmemp _ (Or.inr hr'))
      have ea : a = a' := node_unique hwf ha h6 rfl
      have eb : b = b' := node_unique hwf hb' h8 rfl
      subst ea eb
      exact hmin _ hpr2 a b ⟨h5, h7⟩ w' c' hw'
    · intro k' pr2 hk' hpr2 a b ha hb' w' c' hw'
      have hm2 := (hpair pr2).mp (List.mem_of_getElem? hpr2)
      obtain ⟨a', h5, h6⟩ := hlook pr2.1 (hmemp _ (Or.inl hm2.1))
      obtain ⟨b', h7, h8⟩ := hlook pr2.2 (hmemp _ (Or.inr hm2.2))
      have ea : a = a' := node_unique hwf ha h6 rfl
      have eb : b = b' := node_unique hwf hb' h8 rfl
      subst ea eb
      exact hfirst k' pr2 hk' hpr2 a b ⟨h5, h7⟩ w' c' hw'

theorem collect_ok {q : Queue} {doc : Document} {G : RouteGraph} (es : List EdgeData)
    (h : ∀ e ∈ es, ∃ ps, findShortestEdgesPath q doc G e = .ok (some ps) ∧ Routed doc G e ps) :
    ∃ pss es', collectPaths q doc G es = .ok pss ∧ assignPaths es pss = .ok es' ∧
      List.Forall₂ (fun e e' => ∃ ps, e' = { e with pathPoints := some ps } ∧ Routed doc G e ps) es es' := by
  induction es with
  | nil => exact ⟨[], [], rfl, rfl, List.Forall₂.nil⟩
  | cons e es ih =>
    obtain ⟨pss, es', h1, h2, h3⟩ := ih fun e' he' => h e' (by simp [he'])
    obtain ⟨ps, h4, h5⟩ := h e (by simp)
    refine ⟨ps :: pss, { e with pathPoints := some ps } :: es', ?_, ?_, List.Forall₂.cons ⟨ps, rfl, h5⟩ h3⟩
    · simp only [collectPaths, h4, h1]
    · simp only [assignPaths, h2]

/-- Drawing the edges of a laid-out document. -/
theorem draw_ok {q : Queue} {QI : List Entry → Prop} (hq : q.Lawful QI) {ns : List Nat} {doc : Document} (h : Scene ns doc)
    (hends : ∀ e ∈ doc.edges, EdgeEnds doc e) :
    ∃ g es, SceneGraph doc g ∧
      drawEdgePath q doc .new = .ok ({ doc with edges := es }, connectNearest doc g) ∧
      List.Forall₂ (fun e e' => ∃ ps, e' = { e with pathPoints := some ps } ∧ Routed doc (connectNearest doc g) e ps) doc.edges es := by
  obtain ⟨g, hg⟩ := h.graph
  obtain ⟨pss, es', h1, h2, h3⟩ := collect_ok (q := q) (doc := doc) (G := connectNearest doc g) doc.edges
    (fun e he => find_ok hq h hg e he (hends e he))
  refine ⟨g, es', hg, ?_, h3⟩
  simp only [drawEdgePath, hg.built, h1, h2]

/-! ## Documents that have been laid out -/

/-- The documents the layout is meant for: tables with lines, no ports yet, at least one line (the header) per table,
edges between tables or lines. -/
structure Spec.Drawable (doc : Document) : Prop where
  tabular : Tabular doc
  noPorts : ∀ n ∈ doc.nodes, n.terminalPorts = []
  lines : ∀ t ∈ tables doc, childrenOf doc t ≠ []
  ends : ∀ e ∈ doc.edges, e.sourceId ∈ tables doc ++ (tables doc).flatMap (childrenOf doc) ∧
    e.targetId ∈ tables doc ++ (tables doc).flatMap (childrenOf doc)

theorem laidOut_edges (doc : Document) : (laidOut doc).edges = doc.edges ∧ (laidOut doc).bodyId = doc.bodyId := by
  rw [laidOut, placeTerminalPorts_eq]
  have h1 := addPortsAll_getElem (placeNodes doc).1 ((tables (placeNodes doc).1).flatMap (tablePortAssign (placeNodes doc).1)) 0
  have h2 := setRects_getElem doc (assignments doc).us 0
  rw [h1.2.1, h1.2.2.1, (placeNodes_eq doc).1]
  exact ⟨h2.2.1, h2.2.2.1⟩


theorem mem_shapeRects (doc : Document) (r : Rect) : r ∈ shapeRects doc ↔ ∃ t ∈ tables doc, rectOf doc t = some r := by
  have hb : doc.bodyChildren = tables doc := by
    unfold Document.bodyChildren tables childrenOf Document.getNode
    cases doc.nodes[doc.bodyId]? <;> rfl
  simp only [shapeRects, hb, List.mem_filterMap, rectOf_eq]
  constructor
  · rintro ⟨n, ⟨t, ht, hn⟩, hr⟩
    exact ⟨t, ht, by rw [hn]; exact hr⟩
  · rintro ⟨t, ht, hr⟩
    rw [Option.bind_eq_some_iff] at hr
    obtain ⟨n, hn, hr⟩ := hr
    exact ⟨n, ⟨t, ht, hn⟩, hr⟩

theorem portAt_table (ns : List Nat) (k n : Nat) (hn : 1 ≤ n) (o : Orientation) : PortAt ns k n o (sideMiddle (tableRect ns k n) o) := by
  have h1 : (1 : Rat) ≤ (n : Rat) := by exact_mod_cast hn
  cases o <;> simp only [PortAt, sideMiddle, tableRect, bot, col] <;> refine ⟨?_, ?_⟩ <;>
    first | (constructor <;> linarith) | rfl | linarith

theorem portAt_line (ns : List Nat) (k n j : Nat) (hj : j < n) (o : Orientation) (ho : o ∈ lineOrientations j n) :
    PortAt ns k n o (sideMiddle (lineRect ns k j) o) := by
  have h0 : (0 : Rat) ≤ (j : Rat) := Nat.cast_nonneg _
  have h1 : (j : Rat) + 1 ≤ (n : Rat) := by exact_mod_cast hj
  cases o
  · have : j = 0 := by
      unfold lineOrientations at ho
      split at ho
      · omega
      · split at ho
        · assumption
        · split at ho <;> simp at ho
    subst this
    simp only [PortAt, sideMiddle, lineRect, col]
    constructor
    · linarith
    · simp
  · have : j + 1 = n := by
      unfold lineOrientations at ho
      split at ho
      · omega
      · split at ho
        · simp at ho
        · split at ho
          · omega
          · simp at ho
    subst this
    simp only [PortAt, sideMiddle, lineRect, bot, col]
    constructor
    · linarith
    · push_cast; ring
  · simp only [PortAt, sideMiddle, lineRect, bot, col]
    exact ⟨trivial, by linarith, by linarith⟩
  · simp only [PortAt, sideMiddle, lineRect, bot, col]
    exact ⟨by linarith, by linarith, by linarith⟩

/-- The ports of a table or line are where `PortAt` says. -/
theorem ports_at {doc : Document} (hd : Drawable doc) {i : NodeId} {n : NodeData} (hi : i ∈ tables doc ++ (tables doc).flatMap (childrenOf doc))
    (hn : (laidOut doc).nodes[i]? = some n) :
    ∃ (k : Nat) (t : NodeId), (tables doc)[k]? = some t ∧ (i = t ∨ i ∈ childrenOf doc t) ∧
      ∀ p ∈ n.terminalPorts, PortAt (lineCounts doc) k (childrenOf doc t).length p.orientation p.location := by
  rw [List.mem_append, List.mem_flatMap] at hi
  rcases hi with hi | ⟨t, ht, hi⟩
  · obtain ⟨k, hk⟩ := List.getElem?_of_mem hi
    refine ⟨k, i, hk, Or.inl rfl, ?_⟩
    intro p hp
    have hv := mem_of_mem_view hn p hp
    rw [portsOf_table hd.tabular hd.noPorts k i hk, List.mem_map] at hv
    obtain ⟨o, -, ho⟩ := hv
    simp only [Prod.mk.injEq] at ho
    rw [← ho.1, ← ho.2]
    exact portAt_table _ _ _ (List.length_pos_iff.mpr (hd.lines i hi)) _
  · obtain ⟨k, hk⟩ := List.getElem?_of_mem ht
    obtain ⟨j, hj⟩ := List.getElem?_of_mem hi
    refine ⟨k, t, hk, Or.inr hi, ?_⟩
    intro p hp
    have hv := mem_of_mem_view hn p hp
    rw [portsOf_line hd.tabular hd.noPorts k j t i hk hj, List.mem_map] at hv
    obtain ⟨o, ho', ho⟩ := hv
    simp only [Prod.mk.injEq] at ho
    rw [← ho.1, ← ho.2]
    exact portAt_line _ _ _ _ (List.getElem?_eq_some_iff.mp hj).1 _ ho'

theorem ports_nonempty {doc : Document} (hd : Drawable doc) {i : NodeId} (hi : i ∈ tables doc ++ (tables doc).flatMap (childrenOf doc)) :
    ∃ n, (laidOut doc).nodes[i]? = some n ∧ n.terminalPorts ≠ [] := by
  have key : portsOf (laidOut doc) i ≠ [] := by
    rw [List.mem_append, List.mem_flatMap] at hi
    rcases hi with hi | ⟨t, ht, hi⟩
    · obtain ⟨k, hk⟩ := List.getElem?_of_mem hi
      rw [portsOf_table hd.tabular hd.noPorts k i hk]; simp
    · obtain ⟨k, hk⟩ := List.getElem?_of_mem ht
      obtain ⟨j, hj⟩ := List.getElem?_of_mem hi
      rw [portsOf_line hd.tabular hd.noPorts k j t i hk hj]
      unfold lineOrientations
      split
      · simp
      · split
        · simp
        · split <;> simp
  unfold portsOf at key
  cases hn : (laidOut doc).nodes[i]? with
  | none => rw [hn] at key; exact absurd rfl key
  | some n =>
    rw [hn] at key
    refine ⟨n, rfl, ?_⟩
    intro h
    simp only [h] at key
    exact key rfl

/-- The heights of ports are multiples of 5/2. -/
theorem ports_grid {doc : Document} (hd : Drawable doc) {i : NodeId} {n : NodeData} (hi : i ∈ tables doc ++ (tables doc).flatMap (childrenOf doc))
    (hn : (laidOut doc).nodes[i]? = some n) : ∀ p ∈ n.terminalPorts, ∃ z : Int, p.location.y = 5 / 2 * (z : Rat) := by
  intro p hp
  have hv := mem_of_mem_view hn p hp
  rw [List.mem_append, List.mem_flatMap] at hi
  rcases hi with hi | ⟨t, ht, hi⟩
  · obtain ⟨k, hk⟩ := List.getElem?_of_mem hi
    obtain ⟨z, hz⟩ := rowTop_five (lineCounts doc) (k / 3)
    rw [portsOf_table hd.tabular hd.noPorts k i hk, List.mem_map] at hv
    obtain ⟨o, -, ho⟩ := hv
    simp only [Prod.mk.injEq] at ho
    rw [← ho.1]
    cases o <;> simp only [sideMiddle, tableRect, hz]
    · exact ⟨2 * z, by push_cast; ring⟩
    · exact ⟨2 * z + 14 * ((childrenOf doc i).length : Int), by push_cast; ring⟩
    · exact ⟨2 * z + 7 * ((childrenOf doc i).length : Int), by push_cast; ring⟩
    · exact ⟨2 * z + 7 * ((childrenOf doc i).length : Int), by push_cast; ring⟩
  · obtain ⟨k, hk⟩ := List.getElem?_of_mem ht
    obtain ⟨j, hj⟩ := List.getElem?_of_mem hi
    obtain ⟨z, hz⟩ := rowTop_five (lineCounts doc) (k / 3)
    rw [portsOf_line hd.tabular hd.noPorts k j t i hk hj, List.mem_map] at hv
    obtain ⟨o, -, ho⟩ := hv
    simp only [Prod.mk.injEq] at ho
    rw [← ho.1]
    cases o <;> simp only [sideMiddle, lineRect, hz]
    · exact ⟨2 * z + 14 * (j : Int), by push_cast; ring⟩
    · exact ⟨2 * z + 14 * (j : Int) + 14, by push_cast; ring⟩
    · exact ⟨2 * z + 14 * (j : Int) + 7, by push_cast; ring⟩
    · exact ⟨2 * z + 14 * (j : Int) + 7, by push_cast; ring⟩

theorem edgeEnds_laidOut {doc : Document} (hd : Drawable doc) : ∀ e ∈ (laidOut doc).edges, EdgeEnds (laidOut doc) e := by
  intro e he
  rw [(laidOut_edges doc).1] at he
  obtain ⟨h1, h2⟩ := hd.ends e he
  obtain ⟨s, hs, hsp⟩ := ports_nonempty hd h1
  obtain ⟨t, ht, htp⟩ := ports_nonempty hd h2
  exact ⟨s, t, hs, ht, hsp, htp⟩

theorem scene_laidOut {doc : Document} (hd : Drawable doc) (hsize : (placeNodes doc).2.size.height ≤ 1000000000) :
    Scene (lineCounts doc) (laidOut doc) := by
  have hcount : ∀ (k n : Nat), (lineCounts doc)[k]? = some n ↔ ∃ t, (tables doc)[k]? = some t ∧ (childrenOf doc t).length = n := by
    intro k n
    simp only [lineCounts, List.getElem?_map, Option.map_eq_some_iff]
  refine ⟨?_, ?_, ?_, ?_, ?_, ?_⟩
  · intro r
    rw [mem_shapeRects, tables_laidOut]
    constructor
    · rintro ⟨t, ht, hr⟩
      obtain ⟨k, hk⟩ := List.getElem?_of_mem ht
      rw [rectOf_laidOut, rectOf_table hd.tabular k t hk] at hr
      exact ⟨k, _, (hcount _ _).mpr ⟨t, hk, rfl⟩, (Option.some.inj hr).symm⟩
    · rintro ⟨k, n, hk, rfl⟩
      obtain ⟨t, ht, rfl⟩ := (hcount _ _).mp hk
      exact ⟨t, List.mem_of_getElem? ht, by rw [rectOf_laidOut, rectOf_table hd.tabular k t ht]⟩
  · intro n hn
    obtain ⟨k, hk⟩ := List.getElem?_of_mem hn
    obtain ⟨t, ht, rfl⟩ := (hcount _ _).mp hk
    exact List.length_pos_iff.mpr (hd.lines t (List.mem_of_getElem? ht))
  · intro k n hk
    obtain ⟨t, ht, rfl⟩ := (hcount _ _).mp hk
    have htm := List.mem_of_getElem? ht
    obtain ⟨h0, -, -, hv⟩ := C23_view_box_partial doc hd.tabular (List.ne_nil_of_mem htm)
    obtain ⟨r, hr, -, -, -, h4⟩ := hv t (List.mem_append.mpr (Or.inl htm))
    rw [rectOf_table hd.tabular k t ht] at hr
    cases hr
    rw [h0] at h4
    simp only [tableRect] at h4
    unfold bot
    linarith
  · intro p hp
    rw [List.mem_flatMap] at hp
    obtain ⟨e, he, hp⟩ := hp
    rw [(laidOut_edges doc).1] at he
    obtain ⟨h1, h2⟩ := hd.ends e he
    obtain ⟨s, hs, -⟩ := ports_nonempty hd h1
    obtain ⟨t, ht, -⟩ := ports_nonempty hd h2
    simp only [edgePorts, Document.getNode, hs, ht, List.mem_append] at hp
    rcases hp with hp | hp
    · obtain ⟨k, t', hk, -, hpa⟩ := ports_at hd h1 hs
      exact ⟨k, _, (hcount _ _).mpr ⟨t', hk, rfl⟩, hpa p hp⟩
    · obtain ⟨k, t', hk, -, hpa⟩ := ports_at hd h2 ht
      exact ⟨k, _, (hcount _ _).mpr ⟨t', hk, rfl⟩, hpa p hp⟩
  · have hnd := (C26_port_ids_unique doc hd.noPorts).1
    have hmem : ∀ p ∈ (laidOut doc).edges.flatMap (edgePorts (laidOut doc)), p ∈ (laidOut doc).nodes.flatMap (·.terminalPorts) := by
      intro p hp
      rw [List.mem_flatMap] at hp ⊢
      obtain ⟨e, -, hp⟩ := hp
      unfold edgePorts at hp
      split at hp
      · rename_i s t hs ht
        rw [List.mem_append] at hp
        rcases hp with hp | hp
        · exact ⟨s, List.mem_of_getElem? hs, hp⟩
        · exact ⟨t, List.mem_of_getElem? ht, hp⟩
      · cases hp
    intro p hp q hq hpq
    exact List.inj_on_of_nodup_map hnd (hmem p hp) (hmem q hq) hpq
  · intro p hp
    rw [List.mem_flatMap] at hp
    obtain ⟨e, he, hp⟩ := hp
    rw [(laidOut_edges doc).1] at he
    obtain ⟨h1, h2⟩ := hd.ends e he
    obtain ⟨s, hs, -⟩ := ports_nonempty hd h1
    obtain ⟨t, ht, -⟩ := ports_nonempty hd h2
    simp only [edgePorts, Document.getNode, hs, ht, List.mem_append] at hp
    rcases hp with hp | hp
    · exact ports_grid hd h1 hs p hp
    · exact ports_grid hd h2 ht p hp

end Seiren
