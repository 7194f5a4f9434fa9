import Verif.Proofs.Steps
import Verif.Proofs.Astar
import Verif.Props.Effort
/-! # Bounds of the steps of `Verif/Model/Steps.lean` -/

namespace Seiren.StepBound
open Steps Spec

/-! ## The junctions -/

theorem shapeRects_length (doc : Document) : (shapeRects doc).length ≤ doc.bodyChildren.length :=
  (List.length_filterMap_le _ _).trans (List.length_filterMap_le _ _)

theorem flatMap_length_le {α β : Type} (f : α → List β) (k : Nat) (xs : List α) (h : ∀ x ∈ xs, (f x).length ≤ k) :
    (xs.flatMap f).length ≤ xs.length * k := by
  induction xs with
  | nil => simp
  | cons x xs ih =>
    rw [List.flatMap_cons, List.length_append, List.length_cons, Nat.succ_mul]
    have h1 := h x (by simp)
    have h2 := ih fun x hx => h x (by simp [hx])
    omega

theorem junctionsAroundShapes_length (doc : Document) : (junctionsAroundShapes doc).length ≤ 4 * doc.bodyChildren.length := by
  have h := flatMap_length_le (fun r : Rect =>
    let j := r.insetBy (-SHAPE_JUNCTION_MARGIN) (-SHAPE_JUNCTION_MARGIN)
    [j.origin, ⟨j.maxX, j.minY⟩, ⟨j.maxX, j.maxY⟩, ⟨j.minX, j.maxY⟩]) 4 (shapeRects doc) fun _ _ => by simp
  have := shapeRects_length doc
  unfold junctionsAroundShapes
  omega

theorem sJunctionsAroundShapes_le (doc : Document) : (sJunctionsAroundShapes doc).steps ≤ doc.bodyChildren.length := by
  have h : ∀ (f : NodeId → List Point) (ids : List NodeId), (concat (fun id => done (f id)) ids).steps ≤ ids.length := fun f ids =>
    (concat_le (fun id => done (f id)) 0 ids fun _ _ => Nat.le_refl _).trans (by simp)
  exact h _ _

theorem junctionsFromTerminalPort_length (doc : Document) (port : TerminalPort) (others : List Point) :
    (junctionsFromTerminalPort doc port others).length ≤ others.length := by
  unfold junctionsFromTerminalPort
  cases port.orientation <;> exact List.length_filterMap_le _ _

theorem sJunctionsFromTerminalPort_steps (doc : Document) (port : TerminalPort) (others : List Point) :
    (sJunctionsFromTerminalPort doc port others).steps = doc.bodyChildren.length + (shapeRects doc).length + others.length := by
  have hl : ∀ (f : Rat → Rect → Rat) (s : Rat) (rects : List Rect), (loop (fun s r => done (f s r)) s rects).steps = rects.length := by
    intro f s rects
    induction rects generalizing s with
    | nil => rfl
    | cons r rects ih => rw [loop, round_steps, andThen_steps, done_steps, ih, List.length_cons]; omega
  rw [sJunctionsFromTerminalPort, andThen_steps, sShapeRects_steps, sShapeRects_val]
  cases port.orientation <;> simp only [andThen_steps, select_steps, hl, List.length_map] <;> omega

/-- The terminal ports of a relation, four at most at either end. -/
def FewPorts (doc : Document) : Prop :=
  ∀ e ∈ doc.edges, ∀ s t, doc.getNode e.sourceId = some s → doc.getNode e.targetId = some t →
    s.terminalPorts.length ≤ 4 ∧ t.terminalPorts.length ≤ 4

theorem FewPorts.edgePorts_length {doc : Document} (h : FewPorts doc) {e : EdgeData} (he : e ∈ doc.edges) : (edgePorts doc e).length ≤ 8 := by
  unfold edgePorts
  split
  · next s t hs ht =>
    have := h e he s t hs ht
    rw [List.length_append]
    omega
  · simp

theorem crossingJunctions_length {doc : Document} (h : FewPorts doc) (js : List Point) :
    (crossingJunctions doc js).length ≤ doc.edges.length * (8 * js.length) := by
  refine flatMap_length_le _ _ _ fun e he => ?_
  refine (flatMap_length_le _ js.length _ fun p _ => junctionsFromTerminalPort_length doc p js).trans ?_
  exact Nat.mul_le_mul_right _ (h.edgePorts_length he)

theorem sCrossingJunctions_le {doc : Document} (h : FewPorts doc) (js : List Point) :
    (sCrossingJunctions doc js).steps ≤ doc.edges.length * (8 * (2 * doc.bodyChildren.length + js.length + 1) + 1) := by
  refine concat_le _ _ _ fun e he => ?_
  refine (concat_le _ (2 * doc.bodyChildren.length + js.length) _ fun p _ => ?_).trans (Nat.mul_le_mul_right _ (h.edgePorts_length he))
  rw [sJunctionsFromTerminalPort_steps]
  have := shapeRects_length doc
  omega

theorem sRemoveOverlapped_le (doc : Document) (js : List Point) :
    (sRemoveOverlapped doc js).steps ≤ doc.bodyChildren.length + js.length * (doc.bodyChildren.length + 1) := by
  rw [sRemoveOverlapped, andThen_steps, sShapeRects_steps, sShapeRects_val]
  refine Nat.add_le_add_left (concat_le _ _ _ fun j _ => ?_) _
  rw [andThen_steps, done_steps, Nat.add_zero]
  refine (any_le _ _).trans ?_
  rw [List.length_map]
  exact shapeRects_length doc

/-! ## The graph -/

theorem sAddNodeAt_le (g : RouteGraph) (loc : Point) (o : Option Orientation) : (g.sAddNodeAt loc o).steps ≤ g.nodes.length := by
  rw [RouteGraph.sAddNodeAt, andThen_steps, done_steps, Nat.add_zero]
  refine (find_le _ _).trans ?_
  simp

theorem addNodeAt_grows {g g' : RouteGraph} {loc : Point} {o : Option Orientation} {i : RouteNodeId} (h : g.addNodeAt loc o = .ok (g', i)) :
    g.nodes.length ≤ g'.nodes.length := by
  unfold RouteGraph.addNodeAt at h
  split at h
  · split at h
    · cases h
    · cases h; exact Nat.le_refl _
  · cases h; simp

theorem addTerminalPort_grows {g g' : RouteGraph} {p : TerminalPort} {i : RouteNodeId} (h : g.addTerminalPort p = .ok (g', i)) :
    g.nodes.length ≤ g'.nodes.length := by
  unfold RouteGraph.addTerminalPort at h
  split at h
  · cases h
  · next g1 j hg => cases h; exact addNodeAt_grows (g' := g1) hg

theorem addJunctions_grows {g g' : RouteGraph} {js : List Point} (h : addJunctions g js = .ok g') : g.nodes.length ≤ g'.nodes.length := by
  induction js generalizing g with
  | nil => cases h; exact Nat.le_refl _
  | cons j js ih =>
    unfold addJunctions at h
    split at h
    · cases h
    · next g1 i hg => exact (addNodeAt_grows hg).trans (ih h)

theorem addTerminalPorts_grows {g g' : RouteGraph} {ps : List TerminalPort} (h : addTerminalPorts g ps = .ok g') :
    g.nodes.length ≤ g'.nodes.length := by
  induction ps generalizing g with
  | nil => cases h; exact Nat.le_refl _
  | cons p ps ih =>
    unfold addTerminalPorts at h
    split at h
    · cases h
    · next g1 i hg => exact (addTerminalPort_grows hg).trans (ih h)

theorem sAddJunctions_le {g g' : RouteGraph} {js : List Point} (h : addJunctions g js = .ok g') :
    (sAddJunctions g js).steps ≤ js.length * (g'.nodes.length + 1) := by
  unfold sAddJunctions
  induction js generalizing g with
  | nil => exact Nat.zero_le _
  | cons j js ih =>
    have hgrow := addJunctions_grows h
    unfold addJunctions RouteGraph.addNode at h
    have hle := sAddNodeAt_le g j none
    rw [loopE, round_steps, andThenE_steps, andThenE_val, andThenE_steps, sAddNodeAt_val, List.length_cons, Nat.succ_mul]
    split at h
    · cases h
    · next g1 i hg =>
      have := ih h
      simp only [hg, done_val, done_steps] at this ⊢
      omega

theorem sAddPorts_le {g g' : RouteGraph} {ps : List TerminalPort} (h : addTerminalPorts g ps = .ok g') :
    (sAddPorts g ps).steps ≤ ps.length * (g'.nodes.length + 1) := by
  unfold sAddPorts
  induction ps generalizing g with
  | nil => exact Nat.zero_le _
  | cons p ps ih =>
    have hgrow := addTerminalPorts_grows h
    unfold addTerminalPorts at h
    have hle := sAddNodeAt_le g p.location (some p.orientation)
    have hp : (g.sAddTerminalPort p).steps = (g.sAddNodeAt p.location (some p.orientation)).steps := by
      rw [RouteGraph.sAddTerminalPort, andThenE_steps]
      cases (g.sAddNodeAt p.location (some p.orientation)).val <;> rfl
    rw [loopE, round_steps, andThenE_steps, andThenE_val, andThenE_steps, sAddTerminalPort_val, List.length_cons, Nat.succ_mul, hp]
    split at h
    · cases h
    · next g1 i hg =>
      have := ih h
      simp only [hg, done_val, done_steps] at this ⊢
      omega

theorem sAddTerminalPorts_le {doc : Document} (h : FewPorts doc) {g g' : RouteGraph}
    (hg : addTerminalPorts g (doc.edges.flatMap (edgePorts doc)) = .ok g') :
    (sAddTerminalPorts doc g).steps ≤ doc.edges.length * (8 * (g'.nodes.length + 1) + 1) := by
  unfold sAddTerminalPorts
  have hp : ∀ e ∈ doc.edges, (edgePorts doc e).length ≤ 8 := fun e he => h.edgePorts_length he
  generalize doc.edges = es at hg hp ⊢
  induction es generalizing g with
  | nil => exact Nat.zero_le _
  | cons e es ih =>
    rw [List.flatMap_cons, addTerminalPorts_two] at hg
    rw [loopE, round_steps, andThenE_steps, sAddPorts_val, List.length_cons, Nat.succ_mul]
    cases h1 : addTerminalPorts g (edgePorts doc e) with
    | error e => rw [h1] at hg; cases hg
    | ok g1 =>
      simp only [h1] at hg ⊢
      have h2 := sAddPorts_le h1
      have h3 := addTerminalPorts_grows hg
      have h4 := ih hg fun e he => hp e (by simp [he])
      have h5 : (edgePorts doc e).length * (g1.nodes.length + 1) ≤ 8 * (g'.nodes.length + 1) :=
        Nat.mul_le_mul (hp e (by simp)) (by omega)
      omega

theorem sTakeCandidate_le (cur : Option (RouteNodeId × RouteNodeData)) (nearer : RouteNodeData → Bool) (free : Steps Bool)
    (cand : RouteNodeId × RouteNodeData) : (sTakeCandidate cur nearer free cand).steps ≤ free.steps := by
  unfold sTakeCandidate
  cases cur with
  | none => exact Nat.zero_le _
  | some c =>
    simp only
    split
    · exact Nat.le_refl _
    · exact Nat.zero_le _

theorem sNearestStep_le (rects : List Rect) (n : RouteNodeData) (acc : Nearest) (b : RouteNodeId × RouteNodeData) :
    (sNearestStep rects n acc b).steps ≤ rects.length := by
  have h := any_le (fun r : Rect => r.intersectsLine n.location b.2.location) rects
  have ht : ∀ cur nearer, (sTakeCandidate cur nearer
      ((Steps.any (fun r : Rect => r.intersectsLine n.location b.2.location) rects).andThen fun hit => done (!hit)) b).steps ≤ rects.length :=
    fun cur nearer => (sTakeCandidate_le cur nearer _ b).trans h
  unfold sNearestStep
  simp only
  split
  · split
    · exact ht _ _
    · exact Nat.zero_le _
  split
  · split
    · exact ht _ _
    · exact Nat.zero_le _
  split
  · split
    · exact ht _ _
    · exact Nat.zero_le _
  split
  · split
    · exact ht _ _
    · exact Nat.zero_le _
  exact Nat.zero_le _

theorem sNearestEdges_le (rects : List Rect) (g : RouteGraph) (a : RouteNodeId × RouteNodeData) :
    (sNearestEdges rects g a).steps ≤ g.nodes.length * (rects.length + 1) + 4 := by
  rw [sNearestEdges, andThen_steps, select_steps]
  have := loop_le (sNearestStep rects a.2) rects.length {} g.indexed fun s x _ => sNearestStep_le rects a.2 s x
  have hl : g.indexed.length = g.nodes.length := by simp [RouteGraph.indexed]
  rw [hl] at this
  simpa using this

theorem neighbors_length (g : RouteGraph) (a : RouteNodeId) : (g.neighbors a).length ≤ g.edges.length := by
  unfold RouteGraph.neighbors
  simp only [List.length_append, List.filterMap_reverse, List.length_reverse]
  induction g.edges with
  | nil => simp
  | cons e es ih =>
    simp only [List.filterMap_cons, List.length_cons]
    by_cases h1 : e.1 = a
    · simp only [h1, if_true, ne_eq, not_true_eq_false, and_false, if_false, List.length_cons] at ih ⊢
      omega
    · by_cases h2 : e.2 = a
      · simp only [h1, h2, if_false, true_and, ne_eq, not_false_eq_true, if_true, List.length_cons] at ih ⊢
        omega
      · simp only [h1, h2, if_false, false_and] at ih ⊢
        omega

theorem addEdge_length (g : RouteGraph) (a b : RouteNodeId) : (g.addEdge a b).edges.length ≤ g.edges.length + 1 := by
  unfold RouteGraph.addEdge
  split
  · omega
  · simp

theorem addEdges_le (es : List (RouteNodeId × RouteNodeId)) (g : RouteGraph) (k : Nat) (h : g.edges.length + es.length ≤ k) :
    (loop (fun g e => g.sAddEdge e.1 e.2) g es).steps ≤ es.length * (k + 2) := by
  induction es generalizing g with
  | nil => exact Nat.zero_le _
  | cons e es ih =>
    rw [List.length_cons] at h
    rw [loop, round_steps, andThen_steps, sAddEdge_val, List.length_cons, Nat.succ_mul]
    have h1 : (g.sAddEdge e.1 e.2).steps ≤ g.edges.length + 1 := by
      rw [RouteGraph.sAddEdge, round_steps, andThen_steps, done_steps]
      have := (any_le (· == e.2) (g.neighbors e.1)).trans (neighbors_length g e.1)
      omega
    have h2 := addEdge_length g e.1 e.2
    have h3 := ih (g.addEdge e.1 e.2) (by omega)
    omega

theorem sConnectNearest_le (doc : Document) (g : RouteGraph) (h : g.edges = []) :
    (sConnectNearest doc g).steps ≤ doc.bodyChildren.length + g.nodes.length * (g.nodes.length * (doc.bodyChildren.length + 1) + 5) +
      4 * g.nodes.length * (4 * g.nodes.length + 2) := by
  have hl : g.indexed.length = g.nodes.length := by simp [RouteGraph.indexed]
  rw [sConnectNearest, andThen_steps, andThen_steps, sShapeRects_steps, sShapeRects_val, concat_val _ _ (sNearestEdges_val _ g)]
  have hr : ((shapeRects doc).map fun r => r.insetBy 1 1).length ≤ doc.bodyChildren.length := by
    rw [List.length_map]; exact shapeRects_length doc
  generalize (shapeRects doc).map (fun r => r.insetBy 1 1) = rects at hr ⊢
  have h1 := concat_le (sNearestEdges rects g) (g.nodes.length * (doc.bodyChildren.length + 1) + 4) g.indexed fun a _ =>
    (sNearestEdges_le rects g a).trans (Nat.add_le_add_right (Nat.mul_le_mul_left _ (by omega)) _)
  rw [hl, show g.nodes.length * (doc.bodyChildren.length + 1) + 4 + 1 = g.nodes.length * (doc.bodyChildren.length + 1) + 5 from rfl] at h1
  have h2 := flatMap_length_le (fun a : RouteNodeId × RouteNodeData => (nearestOf rects g a.2).toEdges a.1) 4 g.indexed fun a _ => toEdges_length _ _
  rw [hl] at h2
  have h3 := addEdges_le (g.indexed.flatMap fun a => (nearestOf rects g a.2).toEdges a.1) g (4 * g.nodes.length) (by rw [h, List.length_nil]; omega)
  have h4 : (g.indexed.flatMap fun a => (nearestOf rects g a.2).toEdges a.1).length * (4 * g.nodes.length + 2) ≤
      4 * g.nodes.length * (4 * g.nodes.length + 2) := Nat.mul_le_mul_right _ (by omega)
  omega

/-! ## The search -/

theorem reconstruct_length (m : NodeMap) (fuel : Nat) (v : RouteNodeId) : (reconstruct m fuel v).length ≤ fuel + 1 := by
  induction fuel generalizing v with
  | zero => simp [reconstruct]
  | succ fuel ih =>
    unfold reconstruct
    split
    · simp
    · next p _ => have := ih p; rw [List.length_cons]; omega

theorem sAstarLoop_le {q : Queue} {QI : List Entry → Prop} (hq : q.Lawful QI) (g : RouteGraph) (cost : RouteNodeId → RouteNodeId → Nat)
    (start goal fuel : Nat) (st : AstarState) (hQ : QI st.visitNext) (cur : Nat) (h : AInv g cost start goal cur [] st) :
    (sAstarLoop q g cost goal fuel st).steps ≤ st.visitNext.length + 2 * budget st.estimateScores g.edges + g.nodes.length := by
  induction fuel generalizing st cur with
  | zero => exact Nat.zero_le _
  | succ fuel ih =>
    unfold sAstarLoop
    cases hpop : q.pop st.visitNext with
    | none => exact Nat.zero_le _
    | some r =>
      obtain ⟨⟨est, node⟩, rest⟩ := r
      have hperm := hq.pop_perm _ _ _ hQ hpop
      have hmin := hq.pop_min _ _ _ hQ hpop
      have hQ' := hq.inv_pop _ _ _ hQ hpop
      have hmem : (est, node) ∈ st.visitNext := hperm.mem_iff.mpr (by simp)
      obtain ⟨s, hsc, hle⟩ := h.queued _ hmem
      simp only at hsc hle
      have hopen : st.estimateScores.lookup node = none → s = est := by
        intro hn
        rcases h.pending node s hsc with hp | hp
        · have := hmin _ hp
          simp only at this
          omega
        · rw [hn] at hp; cases hp
      have hlen := hperm.length_eq
      rw [List.length_cons] at hlen
      simp only [hsc, round_steps]
      by_cases hgoal : node = goal
      · simp only [hgoal, if_true, andThen_steps, done_steps]
        have h1 := sReconstruct_steps st.cameFrom g.nodes.length goal
        have h2 := reconstruct_length st.cameFrom g.nodes.length goal
        omega
      · simp only [hgoal, if_false]
        cases hest : st.estimateScores.lookup node with
        | some old =>
          have hold := h.mono node old hest _ hmem
          simp only at hold
          simp only [hold, decide_true, Bool.not_true, Bool.false_eq_true, if_false]
          have := ih _ hQ' cur (h.skip g cost start hperm hest)
          simp only at this
          omega
        | none =>
          have hse := hopen hest
          subst hse
          have hnk : node ∉ keys st.estimateScores := (lookup_none_iff _ _).mp hest
          obtain ⟨h1, hEn, hmax⟩ := h.expand g cost start hperm hmin hsc hest hgoal
          have hrel := relax_spec g cost start hq goal node s (g.neighbors node)
            (fun w hw => (mem_neighbors g node w).mp hw) ⟨rest, st.scores, (node, s) :: st.estimateScores, st.cameFrom⟩ hQ' hEn h1 hmax
          have h2 := ih _ hrel.1 node hrel.2.1
          have hb := neighbors_budget g st.estimateScores node s hnk
          have hl := hrel.2.2.2
          rw [hrel.2.2.1] at h2
          simp only [if_true, andThen_steps, sAstarRelax_steps, sAstarRelax_val] at hl h2 ⊢
          omega

theorem sAstar_le {q : Queue} {QI : List Entry → Prop} (hq : q.Lawful QI) (g : RouteGraph) (cost : RouteNodeId → RouteNodeId → Nat)
    (start goal : RouteNodeId) : (sAstar q g cost start goal).steps ≤ 4 * g.edges.length + g.nodes.length + 1 := by
  have hperm := (hq.push_perm [] (0, start) hq.inv_nil).length_eq
  have h := sAstarLoop_le hq g cost start goal (2 * g.edges.length + 2) _ (hq.inv_push _ (0, start) hq.inv_nil) 0 (AInv.init g cost start hq goal)
  have hb := budget_le [] g.edges
  simp only [List.length_cons, List.length_nil] at hperm h
  unfold sAstar
  omega

theorem astarLoop_path {q : Queue} {g : RouteGraph} {cost : RouteNodeId → RouteNodeId → Nat} {goal fuel : Nat} {st : AstarState}
    {c : Nat} {p : List RouteNodeId} (h : astarLoop q g cost goal fuel st = .ok (some (c, p))) : p.length ≤ g.nodes.length + 1 := by
  induction fuel generalizing st with
  | zero => cases h
  | succ fuel ih =>
    unfold astarLoop at h
    split at h
    · cases h
    · simp only at h
      split at h
      · cases h
      · split at h
        · simp only [Except.ok.injEq, Option.some.injEq, Prod.mk.injEq] at h
          rw [← h.2, List.length_reverse]
          exact reconstruct_length _ _ _
        · split at h
          · split at h <;> exact ih h
          · exact ih h

theorem sComputeShortestPath_le {q : Queue} {QI : List Entry → Prop} (hq : q.Lawful QI) (g : RouteGraph) (start goal : RouteNodeId) :
    (sComputeShortestPath q g start goal).steps ≤ 4 * g.edges.length + 2 * g.nodes.length + 2 := by
  have h := sAstar_le hq g (edgeCost g) start goal
  rw [sComputeShortestPath, andThenE_steps]
  have hv : (sAstar q g (edgeCost g) start goal).val = astar q g (edgeCost g) start goal := sAstarLoop_val ..
  rw [hv]
  cases ha : astar q g (edgeCost g) start goal with
  | error e => simp only; omega
  | ok r =>
    cases r with
    | none => simp only [done_steps]; omega
    | some r =>
      have hp := astarLoop_path (c := r.1) (p := r.2) ha
      simp only [andThen_steps, select_steps, done_steps]
      omega

theorem computeShortestPath_path {q : Queue} {g : RouteGraph} {s t c : Nat} {p : List RouteNodeId} (h : computeShortestPath q g s t = .ok (c, p)) :
    p.length ≤ g.nodes.length + 1 := by
  unfold computeShortestPath at h
  split at h
  · cases h
  · cases h
  · next r ha => cases h; exact astarLoop_path ha

theorem sBestPath_le {q : Queue} {QI : List Entry → Prop} (hq : q.Lawful QI) (g : RouteGraph) (ps : List (TerminalPort × TerminalPort)) (cost : Nat)
    (path : Option (List RouteNodeId)) :
    (sBestPath q g ps cost path).steps ≤ ps.length * (4 * g.edges.length + 2 * g.nodes.length + 3) := by
  induction ps generalizing cost path with
  | nil => exact Nat.zero_le _
  | cons p ps ih =>
    obtain ⟨src, dst⟩ := p
    unfold sBestPath
    rw [round_steps, List.length_cons, Nat.succ_mul]
    cases g.getTerminalPort src.id with
    | none => have := ih cost path; simp only; omega
    | some s =>
      simp only
      cases g.getTerminalPort dst.id with
      | none => have := ih cost path; simp only; omega
      | some t =>
        simp only [andThenE_steps]
        have hc := sComputeShortestPath_le hq g s t
        cases (sComputeShortestPath q g s t).val with
        | error e => simp only; omega
        | ok r =>
          simp only
          split
          · have := ih r.1 (some r.2); omega
          · have := ih cost path; omega

theorem bestPath_path {q : Queue} {g : RouteGraph} {ps : List (TerminalPort × TerminalPort)} {cost : Nat} {path : Option (List RouteNodeId)}
    {p : List RouteNodeId} (hp : ∀ p, path = some p → p.length ≤ g.nodes.length + 1) (h : bestPath q g ps cost path = .ok (some p)) :
    p.length ≤ g.nodes.length + 1 := by
  induction ps generalizing cost path with
  | nil => cases h; exact hp p rfl
  | cons x ps ih =>
    obtain ⟨src, dst⟩ := x
    unfold bestPath at h
    split at h
    · exact ih hp h
    · split at h
      · exact ih hp h
      · split at h
        · cases h
        · next hc =>
          split at h
          · exact ih (fun p e => by cases e; exact computeShortestPath_path hc) h
          · exact ih hp h

theorem sPathLocations_le (g : RouteGraph) (ids : List RouteNodeId) : (sPathLocations g ids).steps ≤ ids.length := by
  induction ids with
  | nil => exact Nat.le_refl _
  | cons id ids ih =>
    unfold sPathLocations
    rw [round_steps, List.length_cons]
    cases g.getNode id with
    | none => exact Nat.succ_le_succ (Nat.zero_le _)
    | some n =>
      simp only [andThenE_steps]
      cases (sPathLocations g ids).val <;> simp only [done_steps] <;> omega

theorem sFindShortestEdgesPath_le {q : Queue} {QI : List Entry → Prop} (hq : q.Lawful QI) {doc : Document} (hf : FewPorts doc) (g : RouteGraph)
    {e : EdgeData} (he : e ∈ doc.edges) :
    (sFindShortestEdgesPath q doc g e).steps ≤ 16 * (4 * g.edges.length + 2 * g.nodes.length + 3) + g.nodes.length + 5 := by
  unfold sFindShortestEdgesPath
  cases hs : doc.getNode e.sourceId with
  | none => exact Nat.zero_le _
  | some s =>
    cases ht : doc.getNode e.targetId with
    | none => exact Nat.zero_le _
    | some t =>
      obtain ⟨h1, h2⟩ := hf e he s t hs ht
      simp only [andThen_steps, andThenE_steps, sBestPath_val]
      have hb := sBestPath_le hq g (portPairs s t) ROUTE_COST_MAX none
      have hpairs : (portPairs s t).length ≤ 16 := by
        refine (flatMap_length_le _ 4 _ fun p _ => ?_).trans (by omega)
        rw [List.length_map]; exact h2
      have hb' := Nat.mul_le_mul_right (4 * g.edges.length + 2 * g.nodes.length + 3) hpairs
      cases hr : bestPath q g (portPairs s t) ROUTE_COST_MAX none with
      | error e => simp only; omega
      | ok r =>
        cases r with
        | none => simp only [done_steps]; omega
        | some path =>
          have hp := bestPath_path (by simp) hr
          have hl := sPathLocations_le g path
          simp only [andThenE_steps]
          cases (sPathLocations g path).val <;> simp only [done_steps] <;> omega

theorem sCollectPaths_le {q : Queue} {QI : List Entry → Prop} (hq : q.Lawful QI) {doc : Document} (hf : FewPorts doc) (g : RouteGraph)
    (es : List EdgeData) (hes : ∀ e ∈ es, e ∈ doc.edges) :
    (sCollectPaths q doc g es).steps ≤ es.length * (16 * (4 * g.edges.length + 2 * g.nodes.length + 3) + g.nodes.length + 6) := by
  induction es with
  | nil => exact Nat.zero_le _
  | cons e es ih =>
    have h1 := sFindShortestEdgesPath_le hq hf g (hes e (by simp))
    have h2 := ih fun e he => hes e (by simp [he])
    unfold sCollectPaths
    rw [round_steps, andThenE_steps, List.length_cons, Nat.succ_mul]
    cases (sFindShortestEdgesPath q doc g e).val with
    | error e => simp only; omega
    | ok r =>
      simp only [andThenE_steps]
      cases (sCollectPaths q doc g es).val <;> simp only [done_steps] <;> omega

theorem sAssignPaths_le (es : List EdgeData) (ps : List (List Point)) : (sAssignPaths es ps).steps ≤ es.length := by
  induction es generalizing ps with
  | nil => exact Nat.le_refl _
  | cons e es ih =>
    cases ps with
    | nil => simp [sAssignPaths]
    | cons p ps =>
      unfold sAssignPaths
      have := ih ps
      rw [round_steps, andThenE_steps, List.length_cons]
      cases (sAssignPaths es ps).val <;> simp only [done_steps] <;> omega

end Seiren.StepBound
