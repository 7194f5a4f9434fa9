import Verif.Model.Route
import Mathlib.Data.List.Nodup
import Mathlib.Tactic.Tauto
/-! # C28, C29: the route graph -/

namespace Seiren

/-- Two nodes are joined by an edge, in either direction. -/
def Spec.Joined (g : RouteGraph) (a b : RouteNodeId) : Prop := (a, b) ∈ g.edges ∨ (b, a) ∈ g.edges

open Spec

theorem mem_neighbors (g : RouteGraph) (a b : RouteNodeId) : b ∈ g.neighbors a ↔ Joined g a b := by
  simp only [RouteGraph.neighbors, Joined, List.mem_append, List.mem_filterMap, List.mem_reverse]
  constructor
  · rintro (⟨⟨x, y⟩, he, h⟩ | ⟨⟨x, y⟩, he, h⟩)
    · simp only at h
      split at h
      · rename_i hx; cases h; subst hx; exact Or.inl he
      · cases h
    · simp only at h
      split at h
      · rename_i hx; cases h; obtain ⟨rfl, -⟩ := hx; exact Or.inr he
      · cases h
  · rintro (h | h)
    · exact Or.inl ⟨(a, b), h, by simp⟩
    · by_cases hab : b = a
      · subst hab; exact Or.inl ⟨(b, b), h, by simp⟩
      · exact Or.inr ⟨(b, a), h, by simp [hab]⟩

theorem find_zipIdx_some {l : List RouteNodeData} {loc : Point} {n : RouteNodeData} {i : Nat}
    (h : l.zipIdx.find? (fun p => p.1.location = loc) = some (n, i)) : l[i]? = some n ∧ n.location = loc := by
  have h1 := List.mem_of_find?_eq_some h
  have h2 := List.find?_some h
  exact ⟨List.mem_zipIdx_iff_getElem?.mp h1, by simpa using h2⟩

theorem find_zipIdx_none {l : List RouteNodeData} {loc : Point}
    (h : l.zipIdx.find? (fun p => p.1.location = loc) = none) : loc ∉ l.map (·.location) := by
  rw [List.find?_eq_none] at h
  intro hm
  rw [List.mem_map] at hm
  obtain ⟨n, hn, hl⟩ := hm
  obtain ⟨i, hi⟩ := List.getElem?_of_mem hn
  have := h (n, i) (List.mem_zipIdx_iff_getElem?.mpr hi)
  simp [hl] at this

/-- What `add_node` and `add_terminal_port` do: they find the node at the location or append one. -/
theorem addNodeAt_ok {g g' : RouteGraph} {loc : Point} {o : Option Orientation} {i : RouteNodeId}
    (h : g.addNodeAt loc o = .ok (g', i)) :
    g'.edges = g.edges ∧ g'.terminalPorts = g.terminalPorts ∧ g'.nodes[i]? = some ⟨loc, o⟩ ∧
      ((g' = g) ∨ (g'.nodes = g.nodes ++ [⟨loc, o⟩] ∧ i = g.nodes.length ∧ loc ∉ g.nodes.map (·.location))) := by
  unfold RouteGraph.addNodeAt at h
  split at h
  · rename_i node j hf
    split at h
    · cases h
    · rename_i ho
      cases h
      obtain ⟨h1, h2⟩ := find_zipIdx_some hf
      refine ⟨rfl, rfl, ?_, Or.inl rfl⟩
      rw [h1]
      obtain ⟨l, o'⟩ := node
      simp only [ne_eq, not_not] at ho
      simp only at h2
      rw [ho, h2]
  · rename_i hf
    cases h
    exact ⟨rfl, rfl, by simp, Or.inr ⟨rfl, rfl, find_zipIdx_none hf⟩⟩

/-! ## C28 -/

/-- A call on the route graph. -/
inductive Spec.RouteOp where
  | node (loc : Point)
  | port (p : TerminalPort)
  | edge (a b : RouteNodeId)

/-- Run calls in order.  petgraph panics if an end of an edge does not exist. -/
def Spec.runOps : List RouteOp → RouteGraph → Except Panic RouteGraph
  | [], g => .ok g
  | .node loc :: ops, g =>
    match g.addNode loc with
    | .error e => .error e
    | .ok (g, _) => runOps ops g
  | .port p :: ops, g =>
    match g.addTerminalPort p with
    | .error e => .error e
    | .ok (g, _) => runOps ops g
  | .edge a b :: ops, g =>
    if a < g.nodes.length ∧ b < g.nodes.length then runOps ops (g.addEdge a b) else .error .missingNode

/-- No two nodes share a location, edges join existing nodes, and no two edges join the same nodes. -/
structure Spec.WellFormed (g : RouteGraph) : Prop where
  locations : (g.nodes.map (·.location)).Nodup
  ends : ∀ e ∈ g.edges, e.1 < g.nodes.length ∧ e.2 < g.nodes.length
  simple : g.edges.Pairwise fun e f => ¬ (e.1 = f.1 ∧ e.2 = f.2) ∧ ¬ (e.1 = f.2 ∧ e.2 = f.1)

/-- The ports that were registered last under their id. -/
def Spec.lastPorts : List RouteOp → List TerminalPort
  | [] => []
  | .port p :: ops => if (lastPorts ops).any (fun q => q.id = p.id) then lastPorts ops else p :: lastPorts ops
  | _ :: ops => lastPorts ops

theorem Spec.WellFormed.addNodeAt {g g' : RouteGraph} {loc : Point} {o : Option Orientation} {i : RouteNodeId}
    (hg : WellFormed g) (h : g.addNodeAt loc o = .ok (g', i)) : WellFormed g' := by
  obtain ⟨he, -, -, hc⟩ := addNodeAt_ok h
  rcases hc with rfl | ⟨hn, -, hl⟩
  · exact hg
  · refine ⟨?_, ?_, by rw [he]; exact hg.simple⟩
    · rw [hn, List.map_append, List.nodup_append]
      refine ⟨hg.locations, by simp, ?_⟩
      intro a ha b hb hab
      simp only [List.map_cons, List.map_nil, List.mem_singleton] at hb
      subst hab hb
      exact hl ha
    · intro e hm
      rw [he] at hm
      have := hg.ends e hm
      rw [hn, List.length_append]
      exact ⟨Nat.lt_add_right _ this.1, Nat.lt_add_right _ this.2⟩

theorem Spec.WellFormed.addEdge {g : RouteGraph} (hg : WellFormed g) {a b : RouteNodeId} (ha : a < g.nodes.length)
    (hb : b < g.nodes.length) : WellFormed (g.addEdge a b) := by
  unfold RouteGraph.addEdge
  split
  · exact hg
  · rename_i hn
    have hj : ¬ Joined g a b := by
      rw [← mem_neighbors]
      intro hm
      exact hn (List.any_eq_true.mpr ⟨b, hm, by simp⟩)
    refine ⟨hg.locations, ?_, ?_⟩
    · intro e he
      rw [List.mem_append, List.mem_singleton] at he
      rcases he with he | rfl
      · exact hg.ends e he
      · exact ⟨ha, hb⟩
    · rw [List.pairwise_append]
      refine ⟨hg.simple, by simp, ?_⟩
      rintro ⟨x, y⟩ he f hf
      rw [List.mem_singleton] at hf
      subst hf
      constructor
      · rintro ⟨h1, h2⟩
        simp only at h1 h2
        subst h1 h2
        exact hj (Or.inl he)
      · rintro ⟨h1, h2⟩
        simp only at h1 h2
        subst h1 h2
        exact hj (Or.inr he)

/-- Node data never change. -/
theorem runOps_nodes {ops : List RouteOp} {g g' : RouteGraph} (h : runOps ops g = .ok g') (i : Nat) (n : RouteNodeData)
    (hi : g.nodes[i]? = some n) : g'.nodes[i]? = some n := by
  induction ops generalizing g with
  | nil => cases h; exact hi
  | cons op ops ih =>
    have hadd : ∀ {g1 : RouteGraph} {loc o j}, g.addNodeAt loc o = .ok (g1, j) → g1.nodes[i]? = some n := by
      intro g1 loc o j h1
      obtain ⟨-, -, -, hc⟩ := addNodeAt_ok h1
      rcases hc with rfl | ⟨hn, -, -⟩
      · exact hi
      · rw [hn, List.getElem?_append_left (List.getElem?_eq_some_iff.mp hi).1, hi]
    cases op with
    | node loc =>
      simp only [runOps, RouteGraph.addNode] at h
      split at h
      · cases h
      · rename_i g1 j h1
        exact ih h (hadd h1)
    | port p =>
      simp only [runOps, RouteGraph.addTerminalPort] at h
      cases h1 : g.addNodeAt p.location (some p.orientation) with
      | error e => rw [h1] at h; cases h
      | ok r =>
        rw [h1] at h
        have := hadd (g1 := r.1) (j := r.2) h1
        exact ih h this
    | edge a b =>
      simp only [runOps] at h
      split at h
      · apply ih h
        unfold RouteGraph.addEdge
        split
        · exact hi
        · exact hi
      · cases h

/-- C28: after any calls that do not panic the graph is well formed. -/
theorem C28_well_formed (ops : List RouteOp) (g g' : RouteGraph) (hg : WellFormed g) (h : runOps ops g = .ok g') :
    WellFormed g' := by
  induction ops generalizing g with
  | nil => cases h; exact hg
  | cons op ops ih =>
    cases op with
    | node loc =>
      simp only [runOps, RouteGraph.addNode] at h
      split at h
      · cases h
      · rename_i g1 j h1
        exact ih _ (hg.addNodeAt h1) h
    | port p =>
      simp only [runOps, RouteGraph.addTerminalPort] at h
      cases h1 : g.addNodeAt p.location (some p.orientation) with
      | error e => rw [h1] at h; cases h
      | ok r =>
        rw [h1] at h
        have hw := hg.addNodeAt h1
        exact ih ⟨r.1.nodes, r.1.edges, (p.id, r.2) :: r.1.terminalPorts⟩ ⟨hw.locations, hw.ends, hw.simple⟩ h
    | edge a b =>
      simp only [runOps] at h
      split at h
      · rename_i hab
        exact ih _ (hg.addEdge hab.1 hab.2) h
      · cases h

theorem runOps_port_lookup {ops : List RouteOp} {g g' : RouteGraph} (h : runOps ops g = .ok g') (id : TerminalPortId)
    (hid : ∀ p ∈ lastPorts ops, p.id ≠ id) : g'.getTerminalPort id = g.getTerminalPort id := by
  induction ops generalizing g with
  | nil => cases h; rfl
  | cons op ops ih =>
    cases op with
    | node loc =>
      simp only [runOps, RouteGraph.addNode] at h
      split at h
      · cases h
      · rename_i g1 j h1
        rw [ih h hid]
        unfold RouteGraph.getTerminalPort
        rw [(addNodeAt_ok h1).2.1]
    | port p =>
      simp only [runOps, RouteGraph.addTerminalPort] at h
      cases h1 : g.addNodeAt p.location (some p.orientation) with
      | error e => rw [h1] at h; cases h
      | ok r =>
        rw [h1] at h
        have hsub : ∀ q ∈ lastPorts ops, q.id ≠ id := by
          intro q hq
          apply hid
          unfold lastPorts
          split
          · exact hq
          · exact List.mem_cons_of_mem _ hq
        have hne : p.id ≠ id := by
          by_cases ha : (lastPorts ops).any (fun q => q.id = p.id)
          · rw [List.any_eq_true] at ha
            obtain ⟨q, hq, hqp⟩ := ha
            have := hsub q hq
            rw [decide_eq_true_iff] at hqp
            rwa [hqp] at this
          · apply hid
            unfold lastPorts
            rw [if_neg ha]
            exact List.mem_cons_self
        rw [ih h hsub]
        unfold RouteGraph.getTerminalPort
        simp only [List.lookup_cons]
        have : (id == p.id) = false := beq_eq_false_iff_ne.mpr (fun h => hne h.symm)
        rw [this, (addNodeAt_ok h1).2.1]
    | edge a b =>
      simp only [runOps] at h
      split at h
      · rw [ih h hid]
        unfold RouteGraph.addEdge RouteGraph.getTerminalPort
        split <;> rfl
      · cases h

/-- C28: every registered port refers to a node with the port's location and orientation. -/
theorem C28_ports_refer (ops : List RouteOp) (g g' : RouteGraph) (h : runOps ops g = .ok g') :
    ∀ p ∈ lastPorts ops, ∃ i, g'.getTerminalPort p.id = some i ∧
      g'.nodes[i]? = some ⟨p.location, some p.orientation⟩ := by
  induction ops generalizing g with
  | nil => intro p hp; cases hp
  | cons op ops ih =>
    cases op with
    | node loc =>
      simp only [runOps, RouteGraph.addNode] at h
      split at h
      · cases h
      · exact ih _ h
    | port p =>
      simp only [runOps, RouteGraph.addTerminalPort] at h
      cases h1 : g.addNodeAt p.location (some p.orientation) with
      | error e => rw [h1] at h; cases h
      | ok r =>
        rw [h1] at h
        intro q hq
        unfold lastPorts at hq
        split at hq
        · exact ih _ h q hq
        · rename_i ha
          rw [List.mem_cons] at hq
          rcases hq with rfl | hq
          · have hl := runOps_port_lookup h q.id (by
              intro q' hq' he
              exact ha (List.any_eq_true.mpr ⟨q', hq', by simpa using he⟩))
            obtain ⟨g1, i⟩ := r
            refine ⟨i, ?_, ?_⟩
            · rw [hl]; simp [RouteGraph.getTerminalPort]
            · exact runOps_nodes h i _ (addNodeAt_ok h1).2.2.1
          · exact ih _ h q hq
    | edge a b =>
      simp only [runOps] at h
      split at h
      · exact ih _ h
      · cases h

/-- The empty graph is well formed, so both theorems apply to everything built from it. -/
theorem wellFormed_new : WellFormed RouteGraph.new := ⟨by simp [RouteGraph.new], by simp [RouteGraph.new], by simp [RouteGraph.new]⟩

/-- A run with a repeated node, a repeated edge, a self loop and a port registered twice. -/
example : let ops : List RouteOp := [.node ⟨1, 2⟩, .node ⟨3, 2⟩, .node ⟨1, 2⟩, .edge 0 1, .edge 1 0, .edge 1 1, .edge 1 1,
      .port ⟨⟨7, 0⟩, ⟨5, 5⟩, .up⟩, .port ⟨⟨7, 0⟩, ⟨6, 5⟩, .left⟩, .edge 3 0]
    (match runOps ops .new with
     | .ok g => decide (g = ⟨[⟨⟨1, 2⟩, none⟩, ⟨⟨3, 2⟩, none⟩, ⟨⟨5, 5⟩, some .up⟩, ⟨⟨6, 5⟩, some .left⟩],
        [(0, 1), (1, 1), (3, 0)], [(⟨7, 0⟩, 3), (⟨7, 0⟩, 2)]⟩)
     | .error _ => false) = true ∧
    (lastPorts ops).length = 1 := by decide +kernel

/-! ## C29 -/

/-- C29: adding a node at an occupied location leaves the graph as it is and returns the node there, if the
orientations agree; otherwise the code panics. -/
theorem C29_add_node_twice (g : RouteGraph) (hg : WellFormed g) (i : RouteNodeId) (n : RouteNodeData)
    (hi : g.nodes[i]? = some n) (o : Option Orientation) :
    g.addNodeAt n.location o = if n.orientation = o then .ok (g, i) else .error .orientationConflict := by
  unfold RouteGraph.addNodeAt
  have : g.nodes.zipIdx.find? (fun p => p.1.location = n.location) = some (n, i) := by
    cases h : g.nodes.zipIdx.find? (fun p => p.1.location = n.location) with
    | none =>
      exact absurd (List.mem_map.mpr ⟨n, List.mem_of_getElem? hi, rfl⟩) (find_zipIdx_none h)
    | some r =>
      obtain ⟨m, j⟩ := r
      obtain ⟨h1, h2⟩ := find_zipIdx_some h
      have hij : i = j := by
        have e1 : (g.nodes.map (·.location))[i]? = some n.location := by simp [hi]
        have e2 : (g.nodes.map (·.location))[j]? = some n.location := by simp [h1, h2]
        have hlt : i < (g.nodes.map (·.location)).length := (List.getElem?_eq_some_iff.mp e1).1
        exact (List.getElem?_inj hlt hg.locations).mp (e1.trans e2.symm)
      subst hij
      rw [hi] at h1
      rw [Option.some.inj h1]
  rw [this]
  by_cases ho : n.orientation = o <;> simp [ho]

/-- C29: after a successful addition the same addition returns the same node and changes nothing. -/
theorem C29_add_node_idempotent (g g' : RouteGraph) (hg : WellFormed g) (loc : Point) (o : Option Orientation)
    (i : RouteNodeId) (h : g.addNodeAt loc o = .ok (g', i)) : g'.addNodeAt loc o = .ok (g', i) := by
  have := C29_add_node_twice g' (hg.addNodeAt h) i ⟨loc, o⟩ (addNodeAt_ok h).2.2.1 o
  simpa using this

/-- C29: adding an edge between nodes that are joined, in either direction, changes nothing; otherwise it joins them
and no others. -/
theorem C29_add_edge (g : RouteGraph) (a b : RouteNodeId) :
    (Joined g a b → g.addEdge a b = g) ∧
    (∀ x y, Joined (g.addEdge a b) x y ↔ Joined g x y ∨ (x = a ∧ y = b) ∨ (x = b ∧ y = a)) ∧
    (g.addEdge a b).addEdge a b = g.addEdge a b ∧ (g.addEdge a b).addEdge b a = g.addEdge a b := by
  have h1 : ∀ (g : RouteGraph) a b, Joined g a b → g.addEdge a b = g := by
    intro g a b h
    unfold RouteGraph.addEdge
    rw [if_pos]
    exact List.any_eq_true.mpr ⟨b, (mem_neighbors g a b).mpr h, by simp⟩
  have h2 : ∀ x y, Joined (g.addEdge a b) x y ↔ Joined g x y ∨ (x = a ∧ y = b) ∨ (x = b ∧ y = a) := by
    intro x y
    unfold RouteGraph.addEdge
    split
    · rename_i h
      rw [List.any_eq_true] at h
      obtain ⟨b', hb', hbb⟩ := h
      rw [beq_iff_eq] at hbb
      subst hbb
      rw [mem_neighbors] at hb'
      constructor
      · exact Or.inl
      · rintro (h | ⟨rfl, rfl⟩ | ⟨rfl, rfl⟩)
        · exact h
        · exact hb'
        · exact hb'.symm
    · simp only [Joined, List.mem_append, List.mem_singleton, Prod.mk.injEq]
      tauto
  refine ⟨h1 g a b, h2, h1 _ _ _ ((h2 a b).mpr (by simp)), h1 _ _ _ ((h2 b a).mpr (by simp))⟩

example : (⟨[⟨⟨1, 2⟩, none⟩, ⟨⟨3, 2⟩, some .left⟩], [(0, 1)], []⟩ : RouteGraph).addEdge 1 0 =
    ⟨[⟨⟨1, 2⟩, none⟩, ⟨⟨3, 2⟩, some .left⟩], [(0, 1)], []⟩ := by decide +kernel

end Seiren
