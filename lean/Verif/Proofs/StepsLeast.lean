import Verif.Proofs.StepsBound
import Verif.Proofs.Nearest
/-! # How many steps the parts of `draw_edge_path` take at least: no loop is left out of the count -/

namespace Seiren.StepBound
open Steps Spec

theorem le_loop {α σ : Type} (f : σ → α → Steps σ) (k : Nat) (s : σ) (xs : List α) (h : ∀ s, ∀ x ∈ xs, k ≤ (f s x).steps) :
    xs.length * (k + 1) ≤ (loop f s xs).steps := by
  induction xs generalizing s with
  | nil => simp
  | cons x xs ih =>
    rw [loop, round_steps, andThen_steps, List.length_cons, Nat.succ_mul]
    have h1 := h s x (by simp)
    have h2 := ih (f s x).val fun s x hx => h s x (by simp [hx])
    omega

theorem find_all {α : Type} (f : α → Bool) (xs : List α) (h : xs.find? f = none) : (find f xs).steps = xs.length := by
  induction xs with
  | nil => rfl
  | cons x xs ih =>
    rw [List.find?_cons] at h
    rw [find, round_steps, List.length_cons]
    cases hx : f x with
    | true => simp [hx] at h
    | false => simp only [hx] at h; simp [ih h]

theorem concat_sum {α β : Type} (f : α → Steps (List β)) (xs : List α) :
    (concat f xs).steps = (xs.map fun x => (f x).steps + 1).sum := by
  induction xs with
  | nil => rfl
  | cons x xs ih =>
    rw [concat, round_steps, andThen_steps, andThen_steps, done_steps, ih, List.map_cons, List.sum_cons]
    omega

/-! ## The junctions -/

theorem sJunctionsAroundShapes_steps (doc : Document) : (sJunctionsAroundShapes doc).steps = doc.bodyChildren.length := by
  have h : ∀ (f : NodeId → List Point) (ids : List NodeId), (concat (fun id => done (f id)) ids).steps = ids.length := fun f ids => by
    rw [concat_sum]
    simp
  exact h _ _

theorem sCrossingJunctions_steps (doc : Document) (js : List Point) : (sCrossingJunctions doc js).steps = doc.edges.length +
    (doc.edges.flatMap (edgePorts doc)).length * (doc.bodyChildren.length + (shapeRects doc).length + js.length + 1) := by
  rw [sCrossingJunctions, concat_sum]
  induction doc.edges with
  | nil => simp
  | cons e es ih =>
    rw [List.map_cons, List.sum_cons, ih, List.flatMap_cons, List.length_append, List.length_cons, concat_sum, Nat.add_mul]
    simp only [sJunctionsFromTerminalPort_steps, List.map_const', List.sum_replicate_nat]
    omega

theorem le_sRemoveOverlapped (doc : Document) (js : List Point) :
    doc.bodyChildren.length + js.length + (removeOverlapped doc js).length * (shapeRects doc).length ≤ (sRemoveOverlapped doc js).steps := by
  rw [← sRemoveOverlapped_val, sRemoveOverlapped, andThen_steps, andThen_val, sShapeRects_steps, sShapeRects_val, Nat.add_assoc]
  refine Nat.add_le_add_left ?_ _
  have hl : ((shapeRects doc).map fun r => r.insetBy (-(SHAPE_JUNCTION_MARGIN - 1)) (-(SHAPE_JUNCTION_MARGIN - 1))).length = (shapeRects doc).length :=
    List.length_map _
  rw [← hl]
  generalize (shapeRects doc).map (fun r => r.insetBy (-(SHAPE_JUNCTION_MARGIN - 1)) (-(SHAPE_JUNCTION_MARGIN - 1))) = rects
  obtain ⟨F, hF⟩ : ∃ F : Point → Steps (List Point), F = fun j =>
      (Steps.any (fun x => x.containsPoint j) rects).andThen fun inside => done (if inside = true then [] else [j]) := ⟨_, rfl⟩
  have key : ∀ j, (F j).val.length * rects.length ≤ (F j).steps := by
    intro j
    rw [hF, andThen_val, andThen_steps, done_val, done_steps, any_val]
    cases hx : rects.any (fun x => x.containsPoint j) with
    | true => simp
    | false => rw [any_all _ _ hx]; simp
  rw [← hF]
  induction js with
  | nil => simp [concat]
  | cons j js ih =>
    have e1 : (concat F (j :: js)).steps = (F j).steps + (concat F js).steps + 1 := by
      rw [concat, round_steps, andThen_steps, andThen_steps, done_steps]; omega
    have e2 : (concat F (j :: js)).val = (F j).val ++ (concat F js).val := rfl
    rw [e1, e2, List.length_append, Nat.add_mul, List.length_cons]
    have := key j
    omega

/-! ## The graph -/

/-- `0 + 1 + … + (n - 1)`. -/
def _root_.Seiren.Spec.pairs (n : Nat) : Nat := n * (n - 1) / 2

theorem pairs_succ (n : Nat) : pairs (n + 1) = pairs n + n := by
  unfold pairs
  have : (n + 1) * (n + 1 - 1) = n * (n - 1) + n * 2 := by
    cases n with
    | zero => rfl
    | succ n => simp only [Nat.add_sub_cancel]; ring
  rw [this, Nat.add_mul_div_right _ _ (by omega)]

theorem le_sAddNodeAt {g g' : RouteGraph} {loc : Point} {o : Option Orientation} {i : RouteNodeId} (h : g.addNodeAt loc o = .ok (g', i)) :
    pairs g'.nodes.length ≤ pairs g.nodes.length + (g.sAddNodeAt loc o).steps := by
  rw [RouteGraph.sAddNodeAt, andThen_steps, done_steps, Nat.add_zero]
  unfold RouteGraph.addNodeAt at h
  split at h
  · split at h
    · cases h
    · cases h; exact Nat.le_add_right _ _
  · next hf =>
    cases h
    rw [find_all _ _ hf]
    simp [pairs_succ]

theorem le_sAddJunctions {g g' : RouteGraph} {js : List Point} (h : addJunctions g js = .ok g') :
    js.length + pairs g'.nodes.length ≤ pairs g.nodes.length + (sAddJunctions g js).steps := by
  unfold sAddJunctions
  induction js generalizing g with
  | nil => cases h; simp
  | cons j js ih =>
    unfold addJunctions RouteGraph.addNode at h
    rw [loopE, round_steps, andThenE_steps, andThenE_val, andThenE_steps, sAddNodeAt_val, List.length_cons]
    split at h
    · cases h
    · next g1 i hg =>
      have h1 := le_sAddNodeAt hg
      have := ih h
      simp only [hg, done_val, done_steps] at this ⊢
      omega

theorem le_sAddPorts {g g' : RouteGraph} {ps : List TerminalPort} (h : addTerminalPorts g ps = .ok g') :
    ps.length + pairs g'.nodes.length ≤ pairs g.nodes.length + (sAddPorts g ps).steps := by
  unfold sAddPorts
  induction ps generalizing g with
  | nil => cases h; simp
  | cons p ps ih =>
    unfold addTerminalPorts at h
    have hp : (g.sAddTerminalPort p).steps = (g.sAddNodeAt p.location (some p.orientation)).steps := by
      rw [RouteGraph.sAddTerminalPort, andThenE_steps]
      cases (g.sAddNodeAt p.location (some p.orientation)).val <;> rfl
    rw [loopE, round_steps, andThenE_steps, andThenE_val, andThenE_steps, sAddTerminalPort_val, List.length_cons, hp]
    split at h
    · cases h
    · next g1 i hg =>
      have h1 : pairs g1.nodes.length ≤ pairs g.nodes.length + (g.sAddNodeAt p.location (some p.orientation)).steps := by
        unfold RouteGraph.addTerminalPort at hg
        split at hg
        · cases hg
        · next g2 j hg2 => cases hg; exact le_sAddNodeAt (g' := g2) hg2
      have := ih h
      simp only [hg, done_val, done_steps] at this ⊢
      omega

theorem le_sAddTerminalPorts {doc : Document} {g g' : RouteGraph} (hg : addTerminalPorts g (doc.edges.flatMap (edgePorts doc)) = .ok g') :
    doc.edges.length + (doc.edges.flatMap (edgePorts doc)).length + pairs g'.nodes.length ≤
      pairs g.nodes.length + (sAddTerminalPorts doc g).steps := by
  unfold sAddTerminalPorts
  generalize doc.edges = es at hg ⊢
  induction es generalizing g with
  | nil => cases hg; simp
  | cons e es ih =>
    rw [List.flatMap_cons, addTerminalPorts_two] at hg
    rw [loopE, round_steps, andThenE_steps, sAddPorts_val, List.length_cons, List.flatMap_cons, List.length_append]
    split at hg
    · cases hg
    · next g1 hg1 =>
      have h1 := le_sAddPorts hg1
      have := ih hg
      simp only [hg1]
      omega

theorem connect_edges (es : List (RouteNodeId × RouteNodeId)) (g : RouteGraph) :
    (loop (fun g e => g.sAddEdge e.1 e.2) g es).val.edges.length ≤ g.edges.length + es.length := by
  rw [loop_val _ (fun g e => g.addEdge e.1 e.2) fun g e => sAddEdge_val g e.1 e.2]
  induction es generalizing g with
  | nil => simp
  | cons e es ih =>
    have h1 := ih (g.addEdge e.1 e.2)
    have h2 := addEdge_length g e.1 e.2
    rw [List.foldl_cons, List.length_cons]
    omega

theorem le_sConnectNearest (doc : Document) (g : RouteGraph) :
    doc.bodyChildren.length + g.nodes.length * (g.nodes.length + 5) + 2 * (connectNearest doc g).edges.length ≤
      (sConnectNearest doc g).steps + 2 * g.edges.length := by
  have hl : g.indexed.length = g.nodes.length := by simp [RouteGraph.indexed]
  rw [← sConnectNearest_val, sConnectNearest, andThen_steps, andThen_steps, andThen_val, andThen_val, sShapeRects_steps]
  have h1 := le_concat (sNearestEdges (sShapeRects doc fun r => r.insetBy 1 1).val g) (g.nodes.length + 4) g.indexed fun a _ => by
    rw [sNearestEdges, andThen_steps, select_steps]
    have := le_loop (sNearestStep (sShapeRects doc fun r => r.insetBy 1 1).val a.2) 0 {} g.indexed fun _ _ _ => Nat.zero_le _
    rw [hl] at this
    simpa using this
  rw [hl, show g.nodes.length + 4 + 1 = g.nodes.length + 5 from rfl] at h1
  generalize (concat (sNearestEdges (sShapeRects doc fun r => r.insetBy 1 1).val g) g.indexed).val = es at *
  have h2 := connect_edges es g
  have h3 := le_loop (fun (g : RouteGraph) (e : RouteNodeId × RouteNodeId) => g.sAddEdge e.1 e.2) 1 g es fun g e _ => by
    rw [RouteGraph.sAddEdge, round_steps]
    exact Nat.le_add_left _ _
  omega

/-! ## The search -/

theorem le_sAstarLoop {q : Queue} {g : RouteGraph} {cost : RouteNodeId → RouteNodeId → Nat} {goal fuel : Nat} {st : AstarState}
    {c : Nat} {p : List RouteNodeId} (h : astarLoop q g cost goal fuel st = .ok (some (c, p))) :
    p.length ≤ (sAstarLoop q g cost goal fuel st).steps := by
  induction fuel generalizing st with
  | zero => cases h
  | succ fuel ih =>
    unfold astarLoop at h
    unfold sAstarLoop
    cases hp : q.pop st.visitNext with
    | none => simp only [hp] at h; cases h
    | some r =>
      obtain ⟨⟨est, node⟩, rest⟩ := r
      simp only [hp] at h
      simp only [round_steps]
      cases hs : st.scores.lookup node with
      | none => simp only [hs] at h; cases h
      | some s =>
        simp only [hs] at h
        simp only
        by_cases hg : node = goal
        · simp only [hg, if_true, Except.ok.injEq, Option.some.injEq, Prod.mk.injEq] at h
          rw [if_pos hg, andThen_steps, done_steps, ← h.2, List.length_reverse, hg, ← sReconstruct_steps]
        · rw [if_neg hg] at h ⊢
          cases hl : st.estimateScores.lookup node with
          | none =>
            simp only [hl, if_true] at h ⊢
            rw [andThen_steps, sAstarRelax_val]
            exact (ih h).trans (by omega)
          | some old =>
            simp only [hl] at h ⊢
            split at h
            · next hv =>
              rw [if_pos (by simpa using hv), andThen_steps, sAstarRelax_val]
              exact (ih h).trans (by omega)
            · next hv =>
              rw [if_neg (by simpa using hv)]
              exact (ih h).trans (by omega)

theorem le_sComputeShortestPath {q : Queue} {g : RouteGraph} {start goal : RouteNodeId} {r : Nat × List RouteNodeId}
    (h : computeShortestPath q g start goal = .ok r) : 2 * r.2.length ≤ (sComputeShortestPath q g start goal).steps := by
  rw [sComputeShortestPath, andThenE_steps, sAstar, sAstarLoop_val]
  unfold computeShortestPath astar at h
  split at h
  · cases h
  · cases h
  · next r' hr =>
    cases h
    have := le_sAstarLoop hr
    simp only [hr, andThen_steps, select_steps, done_steps]
    omega

theorem le_sBestPath {q : Queue} {g : RouteGraph} {ps : List (TerminalPort × TerminalPort)} {cost : Nat} {path : Option (List RouteNodeId)}
    {r : Option (List RouteNodeId)} (h : bestPath q g ps cost path = .ok r) :
    ps.length ≤ (sBestPath q g ps cost path).steps ∧
      ∀ p, r = some p → path = some p ∨ ps.length + 2 * p.length ≤ (sBestPath q g ps cost path).steps := by
  induction ps generalizing cost path with
  | nil => cases h; exact ⟨Nat.zero_le _, fun p e => .inl e⟩
  | cons x ps ih =>
    obtain ⟨src, dst⟩ := x
    unfold bestPath at h
    unfold sBestPath
    rw [round_steps, List.length_cons]
    have next : ∀ {cost path}, bestPath q g ps cost path = .ok r → ps.length + 1 ≤ (sBestPath q g ps cost path).steps + 1 ∧
        ∀ p, r = some p → path = some p ∨ ps.length + 1 + 2 * p.length ≤ (sBestPath q g ps cost path).steps + 1 := by
      intro cost path h
      obtain ⟨h1, h2⟩ := ih h
      refine ⟨by omega, fun p e => ?_⟩
      rcases h2 p e with h3 | h3
      · exact .inl h3
      · exact .inr (by omega)
    cases hs : g.getTerminalPort src.id with
    | none => simp only [hs] at h; exact next h
    | some s =>
      simp only [hs] at h
      simp only
      cases ht : g.getTerminalPort dst.id with
      | none => simp only [ht] at h; exact next h
      | some t =>
        simp only [ht] at h
        simp only [andThenE_steps, sComputeShortestPath_val]
        cases hc : computeShortestPath q g s t with
        | error e => simp only [hc] at h; cases h
        | ok r' =>
          have hlen := le_sComputeShortestPath hc
          simp only [hc] at h
          simp only
          split at h
          · next hlt =>
            obtain ⟨h1, h2⟩ := ih h
            simp only [hlt, if_true]
            refine ⟨by omega, fun p e => .inr ?_⟩
            rcases h2 p e with h3 | h3
            · cases h3; omega
            · omega
          · next hlt =>
            obtain ⟨h1, h2⟩ := ih h
            simp only [hlt, if_false]
            refine ⟨by omega, fun p e => ?_⟩
            rcases h2 p e with h3 | h3
            · exact .inl h3
            · exact .inr (by omega)

theorem sPathLocations_steps {g : RouteGraph} {ids : List RouteNodeId} {ps : List Point} (h : pathLocations g ids = .ok ps) :
    (sPathLocations g ids).steps = ids.length ∧ ps.length = ids.length := by
  induction ids generalizing ps with
  | nil => cases h; exact ⟨rfl, rfl⟩
  | cons id ids ih =>
    unfold pathLocations at h
    unfold sPathLocations
    rw [round_steps, List.length_cons]
    cases hn : g.getNode id with
    | none => simp only [hn] at h; cases h
    | some n =>
      simp only [hn] at h
      simp only [andThenE_steps, sPathLocations_val]
      cases hr : pathLocations g ids with
      | error e => simp only [hr] at h; cases h
      | ok qs =>
        simp only [hr] at h
        cases h
        obtain ⟨h1, h2⟩ := ih hr
        simp only [done_steps, List.length_cons]
        omega

/-- The ports of the start of a relation, and the pairs of ports. -/
def _root_.Seiren.Spec.portWork (doc : Document) (e : EdgeData) : Nat :=
  match doc.getNode e.sourceId, doc.getNode e.targetId with
  | some s, some t => s.terminalPorts.length * (t.terminalPorts.length + 1)
  | _, _ => 0

theorem portPairs_length (s t : NodeData) : (portPairs s t).length = s.terminalPorts.length * t.terminalPorts.length := by
  simp [portPairs, List.length_flatMap, List.map_const']

theorem le_sFind {q : Queue} {doc : Document} {g : RouteGraph} {e : EdgeData} {r : Option (List Point)} (h : findShortestEdgesPath q doc g e = .ok r) :
    portWork doc e + 3 * (r.map List.length).getD 0 ≤ (sFindShortestEdgesPath q doc g e).steps := by
  unfold findShortestEdgesPath at h
  unfold sFindShortestEdgesPath portWork
  cases hs : doc.getNode e.sourceId with
  | none => simp only [hs] at h; cases h; exact Nat.le_refl _
  | some s =>
    cases ht : doc.getNode e.targetId with
    | none => simp only [hs, ht] at h; cases h; exact Nat.le_refl _
    | some t =>
      simp only [hs, ht] at h
      simp only [andThen_steps, andThenE_steps, sBestPath_val]
      have hp := portPairs_length s t
      rw [Nat.mul_succ]
      cases hr : bestPath q g (portPairs s t) ROUTE_COST_MAX none with
      | error e => simp only [hr] at h; cases h
      | ok r' =>
        obtain ⟨h1, h2⟩ := le_sBestPath hr
        simp only [hr] at h
        cases r' with
        | none => simp only at h; cases h; simp only [done_steps, Option.map_none, Option.getD_none]; omega
        | some path =>
          rcases h2 path rfl with h3 | h3
          · cases h3
          · simp only [andThenE_steps, sPathLocations_val]
            cases hl : pathLocations g path with
            | error e => simp only [hl] at h; cases h
            | ok ps =>
              simp only [hl] at h
              cases h
              obtain ⟨h4, h5⟩ := sPathLocations_steps hl
              simp only [done_steps, Option.map_some, Option.getD_some]
              omega

theorem le_sCollectPaths {q : Queue} {doc : Document} {g : RouteGraph} {es : List EdgeData} {ps : List (List Point)}
    (h : collectPaths q doc g es = .ok ps) :
    es.length + (es.map (portWork doc)).sum + 3 * (ps.map List.length).sum ≤ (sCollectPaths q doc g es).steps := by
  induction es generalizing ps with
  | nil => cases h; exact Nat.le_refl _
  | cons e es ih =>
    unfold collectPaths at h
    unfold sCollectPaths
    rw [round_steps, andThenE_steps, List.length_cons, sFindShortestEdgesPath_val, List.map_cons, List.sum_cons]
    cases hf : findShortestEdgesPath q doc g e with
    | error e => simp only [hf] at h; cases h
    | ok r =>
      have h1 := le_sFind hf
      simp only [hf] at h
      simp only [andThenE_steps, sCollectPaths_val]
      cases hc : collectPaths q doc g es with
      | error e => simp only [hc] at h; cases h
      | ok rest =>
        have h2 := ih hc
        simp only [hc] at h
        cases r with
        | none =>
          cases h
          simp only [done_steps, Option.map_none, Option.getD_none] at h1 ⊢
          omega
        | some p =>
          cases h
          simp only [done_steps, Option.map_some, Option.getD_some, List.map_cons, List.sum_cons] at h1 ⊢
          omega

theorem sAssignPaths_steps {es es' : List EdgeData} {ps : List (List Point)} (h : assignPaths es ps = .ok es') :
    (sAssignPaths es ps).steps = es.length ∧ (es'.map fun e => (e.pathPoints.getD []).length).sum ≤ (ps.map List.length).sum := by
  induction es generalizing ps es' with
  | nil => cases h; exact ⟨rfl, Nat.zero_le _⟩
  | cons e es ih =>
    cases ps with
    | nil => cases h
    | cons p ps =>
      unfold assignPaths at h
      unfold sAssignPaths
      rw [round_steps, andThenE_steps, List.length_cons, sAssignPaths_val]
      cases ha : assignPaths es ps with
      | error e => simp only [ha] at h; cases h
      | ok rest =>
        obtain ⟨h1, h2⟩ := ih ha
        simp only [ha] at h
        cases h
        simp only [done_steps, List.map_cons, List.sum_cons, Option.getD_some]
        omega

/-! ## All of it -/

theorem addNodeAt_kept {g g' : RouteGraph} {loc : Point} {o : Option Orientation} {i : RouteNodeId} (h : g.addNodeAt loc o = .ok (g', i)) :
    g'.edges = g.edges := by
  unfold RouteGraph.addNodeAt at h
  split at h
  · split at h <;> cases h
    rfl
  · cases h; rfl

theorem addJunctions_kept {g g' : RouteGraph} {js : List Point} (h : addJunctions g js = .ok g') : g'.edges = g.edges := by
  induction js generalizing g with
  | nil => cases h; rfl
  | cons j js ih =>
    unfold addJunctions at h
    split at h
    · cases h
    · next g1 i hg => rw [ih h]; exact addNodeAt_kept hg

theorem addTerminalPorts_kept {g g' : RouteGraph} {ps : List TerminalPort} (h : addTerminalPorts g ps = .ok g') : g'.edges = g.edges := by
  induction ps generalizing g with
  | nil => cases h; rfl
  | cons p ps ih =>
    unfold addTerminalPorts at h
    split at h
    · cases h
    · next g1 i hg =>
      rw [ih h]
      unfold RouteGraph.addTerminalPort at hg
      split at hg
      · cases hg
      · next g2 j hg2 => cases hg; exact addNodeAt_kept (g' := g2) hg2

theorem le_sBuildRouteGraph {doc : Document} {g : RouteGraph} (h : buildRouteGraph doc .new = .ok g) :
    3 * doc.bodyChildren.length + 4 * (shapeRects doc).length + 2 * doc.edges.length +
      (doc.edges.flatMap (edgePorts doc)).length * (doc.bodyChildren.length + 5 * (shapeRects doc).length + 2) +
      pairs g.nodes.length + g.nodes.length * (g.nodes.length + 5) + 2 * g.edges.length ≤ (sBuildRouteGraph doc .new).steps := by
  unfold buildRouteGraph at h
  unfold sBuildRouteGraph
  simp only [andThen_steps, andThenE_steps, sJunctionsAroundShapes_val, sCrossingJunctions_val, sRemoveOverlapped_val, sAddJunctions_val] at h ⊢
  have hc : (junctionsAroundShapes doc).length = 4 * (shapeRects doc).length := by
    simp [junctionsAroundShapes, List.length_flatMap, List.map_const', Nat.mul_comm]
  have h1 := sJunctionsAroundShapes_steps doc
  have h2 := sCrossingJunctions_steps doc (junctionsAroundShapes doc)
  have h3 := le_sRemoveOverlapped doc (junctionsAroundShapes doc ++ crossingJunctions doc (junctionsAroundShapes doc))
  rw [List.length_append, hc] at h3
  rw [hc] at h2
  cases ha : addJunctions .new (removeOverlapped doc (junctionsAroundShapes doc ++ crossingJunctions doc (junctionsAroundShapes doc))) with
  | error e => simp only [ha] at h; cases h
  | ok g1 =>
    have h4 := le_sAddJunctions ha
    simp only [ha] at h
    simp only [sAddTerminalPorts_val]
    cases hp : addTerminalPorts g1 (doc.edges.flatMap (edgePorts doc)) with
    | error e => simp only [hp] at h; cases h
    | ok g2 =>
      have h5 := le_sAddTerminalPorts hp
      simp only [hp] at h
      cases h
      have h6 := le_sConnectNearest doc g2
      have hn : (connectNearest doc g2).nodes = g2.nodes := (connect_nodes doc g2).1
      have he : g2.edges = [] := (addTerminalPorts_kept hp).trans (addJunctions_kept ha)
      rw [hn]
      simp only [done_steps]
      have e0 : pairs (RouteGraph.new).nodes.length = 0 := rfl
      rw [he, List.length_nil] at h6
      have e1 : (doc.edges.flatMap (edgePorts doc)).length * (doc.bodyChildren.length + 5 * (shapeRects doc).length + 2) =
        (doc.edges.flatMap (edgePorts doc)).length * (doc.bodyChildren.length + (shapeRects doc).length + 4 * (shapeRects doc).length + 1) +
          (doc.edges.flatMap (edgePorts doc)).length := by ring
      rw [e1]
      omega

theorem le_sDrawEdgePath {q : Queue} {doc doc' : Document} {g : RouteGraph} (h : drawEdgePath q doc .new = .ok (doc', g)) :
    3 * doc.bodyChildren.length + 4 * (shapeRects doc).length + 4 * doc.edges.length +
      (doc.edges.flatMap (edgePorts doc)).length * (doc.bodyChildren.length + 5 * (shapeRects doc).length + 2) +
      pairs g.nodes.length + g.nodes.length * (g.nodes.length + 5) + 2 * g.edges.length + (doc.edges.map (portWork doc)).sum +
      3 * (doc'.edges.map fun e => (e.pathPoints.getD []).length).sum ≤ (sDrawEdgePath q doc .new).steps := by
  unfold drawEdgePath at h
  unfold sDrawEdgePath
  rw [andThenE_steps, sBuildRouteGraph_val]
  cases hb : buildRouteGraph doc .new with
  | error e => simp only [hb] at h; cases h
  | ok g1 =>
    have h1 := le_sBuildRouteGraph hb
    simp only [hb] at h
    simp only [andThenE_steps, sCollectPaths_val]
    cases hc : collectPaths q doc g1 doc.edges with
    | error e => simp only [hc] at h; cases h
    | ok paths =>
      have h2 := le_sCollectPaths hc
      simp only [hc] at h
      simp only [sAssignPaths_val]
      cases ha : assignPaths doc.edges paths with
      | error e => simp only [ha] at h; cases h
      | ok es =>
        obtain ⟨h3, h4⟩ := sAssignPaths_steps ha
        simp only [ha] at h
        cases h
        simp only [done_steps]
        omega

end Seiren.StepBound
