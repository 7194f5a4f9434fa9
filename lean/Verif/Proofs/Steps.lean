import Verif.Model.Steps
/-! # The counted functions of `Verif/Model/Steps.lean` give the results of the uncounted ones -/

namespace Seiren
open Steps

namespace Steps
variable {α β σ : Type}

@[simp] theorem done_val (a : α) : (done a).val = a := rfl
@[simp] theorem done_steps (a : α) : (done a).steps = 0 := rfl
@[simp] theorem round_val (x : Steps α) : (round x).val = x.val := rfl
@[simp] theorem round_steps (x : Steps α) : (round x).steps = x.steps + 1 := rfl
@[simp] theorem andThen_val (x : Steps α) (f : α → Steps β) : (x.andThen f).val = (f x.val).val := rfl
@[simp] theorem andThen_steps (x : Steps α) (f : α → Steps β) : (x.andThen f).steps = x.steps + (f x.val).steps := rfl

theorem andThenE_val {ε : Type} (x : Steps (Except ε α)) (f : α → Steps (Except ε β)) :
    (x.andThenE f).val = match x.val with | .error e => .error e | .ok a => (f a).val := by
  unfold andThenE
  cases x.val <;> rfl

theorem andThenE_steps {ε : Type} (x : Steps (Except ε α)) (f : α → Steps (Except ε β)) :
    (x.andThenE f).steps = x.steps + match x.val with | .error _ => 0 | .ok a => (f a).steps := by
  unfold andThenE
  cases x.val <;> rfl

theorem any_val (f : α → Bool) (xs : List α) : (Steps.any f xs).val = xs.any f := by
  induction xs with
  | nil => rfl
  | cons x xs ih =>
    rw [Steps.any, round_val, List.any_cons]
    cases h : f x <;> simp [ih]

theorem any_le (f : α → Bool) (xs : List α) : (Steps.any f xs).steps ≤ xs.length := by
  induction xs with
  | nil => exact Nat.le_refl _
  | cons x xs ih =>
    rw [Steps.any, round_steps, List.length_cons]
    split
    · simp
    · omega

theorem any_all (f : α → Bool) (xs : List α) (h : xs.any f = false) : (Steps.any f xs).steps = xs.length := by
  induction xs with
  | nil => rfl
  | cons x xs ih =>
    rw [List.any_cons, Bool.or_eq_false_iff] at h
    rw [Steps.any, round_steps, List.length_cons, h.1]
    simp [ih h.2]

theorem find_val (f : α → Bool) (xs : List α) : (find f xs).val = xs.find? f := by
  induction xs with
  | nil => rfl
  | cons x xs ih =>
    rw [find, round_val, List.find?_cons]
    cases h : f x <;> simp [ih]

theorem find_le (f : α → Bool) (xs : List α) : (find f xs).steps ≤ xs.length := by
  induction xs with
  | nil => exact Nat.le_refl _
  | cons x xs ih =>
    rw [find, round_steps, List.length_cons]
    split
    · simp
    · omega

theorem loop_val (f : σ → α → Steps σ) (g : σ → α → σ) (h : ∀ s x, (f s x).val = g s x) (s : σ) (xs : List α) :
    (loop f s xs).val = xs.foldl g s := by
  induction xs generalizing s with
  | nil => rfl
  | cons x xs ih => rw [loop, round_val, andThen_val, ih, h, List.foldl_cons]

theorem loop_le (f : σ → α → Steps σ) (k : Nat) (s : σ) (xs : List α) (h : ∀ s, ∀ x ∈ xs, (f s x).steps ≤ k) :
    (loop f s xs).steps ≤ xs.length * (k + 1) := by
  induction xs generalizing s with
  | nil => exact Nat.zero_le _
  | cons x xs ih =>
    rw [loop, round_steps, andThen_steps, List.length_cons, Nat.succ_mul]
    have h1 := h s x (by simp)
    have h2 := ih (f s x).val fun s x hx => h s x (by simp [hx])
    omega

theorem concat_val (f : α → Steps (List β)) (g : α → List β) (h : ∀ x, (f x).val = g x) (xs : List α) :
    (concat f xs).val = xs.flatMap g := by
  induction xs with
  | nil => rfl
  | cons x xs ih => rw [concat, round_val, andThen_val, andThen_val, done_val, ih, h, List.flatMap_cons]

theorem concat_le (f : α → Steps (List β)) (k : Nat) (xs : List α) (h : ∀ x ∈ xs, (f x).steps ≤ k) :
    (concat f xs).steps ≤ xs.length * (k + 1) := by
  induction xs with
  | nil => exact Nat.zero_le _
  | cons x xs ih =>
    rw [concat, round_steps, andThen_steps, andThen_steps, done_steps, List.length_cons, Nat.succ_mul]
    have h1 := h x (by simp)
    have h2 := ih fun x hx => h x (by simp [hx])
    omega

theorem le_concat (f : α → Steps (List β)) (k : Nat) (xs : List α) (h : ∀ x ∈ xs, k ≤ (f x).steps) :
    xs.length * (k + 1) ≤ (concat f xs).steps := by
  induction xs with
  | nil => simp
  | cons x xs ih =>
    rw [concat, round_steps, andThen_steps, andThen_steps, done_steps, List.length_cons, Nat.succ_mul]
    have h1 := h x (by simp)
    have h2 := ih fun x hx => h x (by simp [hx])
    omega

theorem select_val (f : α → Option β) (xs : List α) : (select f xs).val = xs.filterMap f := by
  rw [select, concat_val _ (fun x => (f x).toList) (fun _ => rfl)]
  induction xs with
  | nil => rfl
  | cons x xs ih =>
    rw [List.flatMap_cons, ih, List.filterMap_cons]
    cases f x <;> rfl

theorem select_steps (f : α → Option β) (xs : List α) : (select f xs).steps = xs.length := by
  unfold select
  induction xs with
  | nil => rfl
  | cons x xs ih => rw [concat, round_steps, andThen_steps, andThen_steps, done_steps, done_steps, ih, List.length_cons]; omega

end Steps

theorem sShapeRects_val (doc : Document) (inset : Rect → Rect) : (sShapeRects doc inset).val = (shapeRects doc).map inset := by
  rw [sShapeRects, select_val, shapeRects]
  induction doc.bodyChildren with
  | nil => rfl
  | cons id ids ih =>
    simp only [List.filterMap_cons]
    cases doc.getNode id with
    | none => exact ih
    | some n =>
      simp only [Option.bind_some, List.filterMap_cons]
      cases n.rect with
      | none => exact ih
      | some r => exact congrArg _ ih

theorem sShapeRects_steps (doc : Document) (inset : Rect → Rect) : (sShapeRects doc inset).steps = doc.bodyChildren.length :=
  select_steps _ _

theorem sJunctionsAroundShapes_val (doc : Document) : (sJunctionsAroundShapes doc).val = junctionsAroundShapes doc := by
  rw [sJunctionsAroundShapes, concat_val _ _ (fun _ => rfl), junctionsAroundShapes, shapeRects]
  induction doc.bodyChildren with
  | nil => rfl
  | cons id ids ih =>
    rw [List.flatMap_cons, ih, List.filterMap_cons]
    cases doc.getNode id with
    | none => rfl
    | some n => cases hr : n.rect <;> simp [hr]

theorem sJunctionsFromTerminalPort_val (doc : Document) (port : TerminalPort) (others : List Point) :
    (sJunctionsFromTerminalPort doc port others).val = junctionsFromTerminalPort doc port others := by
  rw [sJunctionsFromTerminalPort, andThen_val, sShapeRects_val, junctionsFromTerminalPort]
  cases port.orientation <;> simp only [andThen_val, select_val] <;> rw [loop_val _ _ (fun _ _ => rfl)] <;> rfl

theorem sCrossingJunctions_val (doc : Document) (js : List Point) : (sCrossingJunctions doc js).val = crossingJunctions doc js := by
  rw [sCrossingJunctions, concat_val _ _ (fun e => concat_val _ _ (fun pt => sJunctionsFromTerminalPort_val doc pt js) _), crossingJunctions]

theorem sRemoveOverlapped_val (doc : Document) (js : List Point) : (sRemoveOverlapped doc js).val = removeOverlapped doc js := by
  rw [sRemoveOverlapped, andThen_val, sShapeRects_val, removeOverlapped, concat_val _ _ (fun j => by rw [andThen_val, any_val, done_val])]
  generalize (shapeRects doc).map _ = rects
  induction js with
  | nil => rfl
  | cons j js ih =>
    rw [List.flatMap_cons, ih, List.filter_cons]
    cases rects.any (·.containsPoint j) <;> simp

theorem sAddNodeAt_val (g : RouteGraph) (loc : Point) (o : Option Orientation) : (g.sAddNodeAt loc o).val = g.addNodeAt loc o := by
  rw [RouteGraph.sAddNodeAt, andThen_val, find_val, done_val, RouteGraph.addNodeAt]
  rfl

theorem sAddTerminalPort_val (g : RouteGraph) (p : TerminalPort) : (g.sAddTerminalPort p).val = g.addTerminalPort p := by
  rw [RouteGraph.sAddTerminalPort, andThenE_val, sAddNodeAt_val, RouteGraph.addTerminalPort]
  cases g.addNodeAt p.location (some p.orientation) <;> rfl

theorem sAddEdge_val (g : RouteGraph) (a b : RouteNodeId) : (g.sAddEdge a b).val = g.addEdge a b := by
  rw [RouteGraph.sAddEdge, round_val, andThen_val, any_val, done_val, RouteGraph.addEdge]

theorem sAddJunctions_val (g : RouteGraph) (js : List Point) : (sAddJunctions g js).val = addJunctions g js := by
  unfold sAddJunctions
  induction js generalizing g with
  | nil => rfl
  | cons j js ih =>
    rw [loopE, round_val, andThenE_val, andThenE_val, sAddNodeAt_val, addJunctions, RouteGraph.addNode]
    cases g.addNodeAt j none with
    | error e => rfl
    | ok r => exact ih r.1

theorem sAddPorts_val (g : RouteGraph) (ps : List TerminalPort) : (sAddPorts g ps).val = addTerminalPorts g ps := by
  unfold sAddPorts
  induction ps generalizing g with
  | nil => rfl
  | cons p ps ih =>
    rw [loopE, round_val, andThenE_val, andThenE_val, sAddTerminalPort_val, addTerminalPorts]
    cases g.addTerminalPort p with
    | error e => rfl
    | ok r => exact ih r.1

theorem addTerminalPorts_two (g : RouteGraph) (ps qs : List TerminalPort) :
    addTerminalPorts g (ps ++ qs) = match addTerminalPorts g ps with | .error e => .error e | .ok g => addTerminalPorts g qs := by
  induction ps generalizing g with
  | nil => rfl
  | cons p ps ih =>
    rw [List.cons_append, addTerminalPorts, addTerminalPorts]
    cases g.addTerminalPort p with
    | error e => rfl
    | ok r => exact ih r.1

theorem sAddTerminalPorts_val (doc : Document) (g : RouteGraph) :
    (sAddTerminalPorts doc g).val = addTerminalPorts g (doc.edges.flatMap (edgePorts doc)) := by
  unfold sAddTerminalPorts
  induction doc.edges generalizing g with
  | nil => rfl
  | cons e es ih =>
    rw [loopE, round_val, andThenE_val, sAddPorts_val, List.flatMap_cons, addTerminalPorts_two]
    cases addTerminalPorts g (edgePorts doc e) with
    | error e => rfl
    | ok g => exact ih g

theorem sTakeCandidate_val (cur : Option (RouteNodeId × RouteNodeData)) (nearer : RouteNodeData → Bool) (free : Steps Bool)
    (cand : RouteNodeId × RouteNodeData) : (sTakeCandidate cur nearer free cand).val = takeCandidate cur nearer free.val cand := by
  unfold sTakeCandidate takeCandidate
  cases cur with
  | none => rfl
  | some c =>
    simp only
    cases nearer c.2 <;> simp

theorem sNearestStep_val (rects : List Rect) (n : RouteNodeData) (acc : Nearest) (b : RouteNodeId × RouteNodeData) :
    (sNearestStep rects n acc b).val = nearestStep rects n acc b := by
  unfold sNearestStep nearestStep
  simp only [← any_val]
  split
  · split
    · rw [andThen_val, sTakeCandidate_val]; rfl
    · rfl
  split
  · split
    · rw [andThen_val, sTakeCandidate_val]; rfl
    · rfl
  split
  · split
    · rw [andThen_val, sTakeCandidate_val]; rfl
    · rfl
  split
  · split
    · rw [andThen_val, sTakeCandidate_val]; rfl
    · rfl
  rfl

theorem sNearestEdges_val (rects : List Rect) (g : RouteGraph) (a : RouteNodeId × RouteNodeData) :
    (sNearestEdges rects g a).val = (nearestOf rects g a.2).toEdges a.1 := by
  rw [sNearestEdges, andThen_val, loop_val _ _ (sNearestStep_val rects a.2), select_val]
  rfl

theorem sConnectNearest_val (doc : Document) (g : RouteGraph) : (sConnectNearest doc g).val = connectNearest doc g := by
  rw [sConnectNearest, andThen_val, andThen_val, sShapeRects_val, loop_val _ (fun g e => g.addEdge e.1 e.2) (fun g e => sAddEdge_val g e.1 e.2),
    concat_val _ _ (sNearestEdges_val _ g)]
  rfl

theorem sAstarRelax_val (q : Queue) (cost : RouteNodeId → RouteNodeId → Nat) (node nodeScore : Nat) (ns : List RouteNodeId) (st : AstarState) :
    (sAstarRelax q cost node nodeScore ns st).val = astarRelax q cost node nodeScore ns st := by
  unfold sAstarRelax
  induction ns generalizing st with
  | nil => rfl
  | cons n ns ih =>
    rw [loop, round_val, andThen_val, done_val, ih, astarRelax]
    cases st.scores.lookup n with
    | none => rfl
    | some old =>
      simp only
      split <;> rfl

theorem sAstarRelax_steps (q : Queue) (cost : RouteNodeId → RouteNodeId → Nat) (node nodeScore : Nat) (ns : List RouteNodeId) (st : AstarState) :
    (sAstarRelax q cost node nodeScore ns st).steps = ns.length := by
  unfold sAstarRelax
  induction ns generalizing st with
  | nil => rfl
  | cons n ns ih => rw [loop, round_steps, andThen_steps, done_steps, ih, List.length_cons, Nat.zero_add]

theorem sReconstruct_val (m : NodeMap) (fuel : Nat) (v : RouteNodeId) : (sReconstruct m fuel v).val = reconstruct m fuel v := by
  induction fuel generalizing v with
  | zero => rfl
  | succ fuel ih =>
    unfold sReconstruct reconstruct
    cases m.lookup v with
    | none => rfl
    | some p => simp [ih]

theorem sReconstruct_steps (m : NodeMap) (fuel : Nat) (v : RouteNodeId) : (sReconstruct m fuel v).steps + 1 = (reconstruct m fuel v).length := by
  induction fuel generalizing v with
  | zero => rfl
  | succ fuel ih =>
    unfold sReconstruct reconstruct
    cases m.lookup v with
    | none => rfl
    | some p => simp [ih]

theorem sAstarLoop_val (q : Queue) (g : RouteGraph) (cost : RouteNodeId → RouteNodeId → Nat) (goal fuel : Nat) (st : AstarState) :
    (sAstarLoop q g cost goal fuel st).val = astarLoop q g cost goal fuel st := by
  induction fuel generalizing st with
  | zero => rfl
  | succ fuel ih =>
    unfold sAstarLoop astarLoop
    cases q.pop st.visitNext with
    | none => rfl
    | some r =>
      obtain ⟨⟨est, node⟩, rest⟩ := r
      simp only [round_val]
      cases st.scores.lookup node with
      | none => rfl
      | some s =>
        simp only
        split
        · rw [andThen_val, sReconstruct_val, done_val]
        · cases hl : st.estimateScores.lookup node with
          | none => simp only [if_true]; rw [andThen_val, sAstarRelax_val, ih]
          | some old =>
            simp only
            split
            · rw [andThen_val, sAstarRelax_val, ih]
            · exact ih _

theorem sComputeShortestPath_val (q : Queue) (g : RouteGraph) (start goal : RouteNodeId) :
    (sComputeShortestPath q g start goal).val = computeShortestPath q g start goal := by
  rw [sComputeShortestPath, andThenE_val, sAstar, sAstarLoop_val, computeShortestPath, astar]
  cases astarLoop q g (edgeCost g) goal (2 * g.edges.length + 2) _ with
  | error e => rfl
  | ok r => cases r with
    | none => rfl
    | some r => simp only [andThen_val, select_val, List.filterMap_some, done_val]

theorem sBestPath_val (q : Queue) (g : RouteGraph) (ps : List (TerminalPort × TerminalPort)) (cost : Nat) (path : Option (List RouteNodeId)) :
    (sBestPath q g ps cost path).val = bestPath q g ps cost path := by
  induction ps generalizing cost path with
  | nil => rfl
  | cons p ps ih =>
    obtain ⟨src, dst⟩ := p
    unfold sBestPath bestPath
    rw [round_val]
    cases g.getTerminalPort src.id with
    | none => exact ih _ _
    | some s =>
      simp only
      cases g.getTerminalPort dst.id with
      | none => exact ih _ _
      | some t =>
        simp only [andThenE_val, sComputeShortestPath_val]
        cases computeShortestPath q g s t with
        | error e => rfl
        | ok r =>
          simp only
          split <;> exact ih _ _

theorem sPathLocations_val (g : RouteGraph) (ids : List RouteNodeId) : (sPathLocations g ids).val = pathLocations g ids := by
  induction ids with
  | nil => rfl
  | cons id ids ih =>
    unfold sPathLocations pathLocations
    rw [round_val]
    cases g.getNode id with
    | none => rfl
    | some n =>
      simp only [andThenE_val, ih]
      cases pathLocations g ids <;> rfl

theorem sFindShortestEdgesPath_val (q : Queue) (doc : Document) (g : RouteGraph) (e : EdgeData) :
    (sFindShortestEdgesPath q doc g e).val = findShortestEdgesPath q doc g e := by
  unfold sFindShortestEdgesPath findShortestEdgesPath
  cases doc.getNode e.sourceId with
  | none => rfl
  | some s =>
    cases doc.getNode e.targetId with
    | none => rfl
    | some t =>
      simp only [andThen_val, andThenE_val, sBestPath_val]
      cases bestPath q g (portPairs s t) ROUTE_COST_MAX none with
      | error e => rfl
      | ok r => cases r with
        | none => rfl
        | some path =>
          simp only [andThenE_val, sPathLocations_val]
          cases pathLocations g path <;> rfl

theorem sCollectPaths_val (q : Queue) (doc : Document) (g : RouteGraph) (es : List EdgeData) :
    (sCollectPaths q doc g es).val = collectPaths q doc g es := by
  induction es with
  | nil => rfl
  | cons e es ih =>
    unfold sCollectPaths collectPaths
    rw [round_val, andThenE_val, sFindShortestEdgesPath_val]
    cases findShortestEdgesPath q doc g e with
    | error e => rfl
    | ok r =>
      simp only [andThenE_val, ih]
      cases collectPaths q doc g es <;> rfl

theorem sAssignPaths_val (es : List EdgeData) (ps : List (List Point)) : (sAssignPaths es ps).val = assignPaths es ps := by
  induction es generalizing ps with
  | nil => rfl
  | cons e es ih =>
    cases ps with
    | nil => rfl
    | cons p ps =>
      unfold sAssignPaths assignPaths
      rw [round_val, andThenE_val, ih]
      cases assignPaths es ps <;> rfl

theorem sBuildRouteGraph_val (doc : Document) (g : RouteGraph) : (sBuildRouteGraph doc g).val = buildRouteGraph doc g := by
  unfold sBuildRouteGraph buildRouteGraph
  simp only [andThen_val, andThenE_val, sJunctionsAroundShapes_val, sCrossingJunctions_val, sRemoveOverlapped_val, sAddJunctions_val]
  cases addJunctions g (removeOverlapped doc (junctionsAroundShapes doc ++ crossingJunctions doc (junctionsAroundShapes doc))) with
  | error e => rfl
  | ok g =>
    simp only [sAddTerminalPorts_val]
    cases addTerminalPorts g (doc.edges.flatMap (edgePorts doc)) with
    | error e => rfl
    | ok g => simp only [sConnectNearest_val, done_val]

theorem sDrawEdgePath_val (q : Queue) (doc : Document) (g : RouteGraph) : (sDrawEdgePath q doc g).val = drawEdgePath q doc g := by
  unfold sDrawEdgePath drawEdgePath
  rw [andThenE_val, sBuildRouteGraph_val]
  cases buildRouteGraph doc g with
  | error e => rfl
  | ok g =>
    simp only [andThenE_val, sCollectPaths_val]
    cases collectPaths q doc g doc.edges with
    | error e => rfl
    | ok paths =>
      simp only [sAssignPaths_val]
      cases assignPaths doc.edges paths <;> rfl

end Seiren
