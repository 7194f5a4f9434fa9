import Verif.Props.Streets
import Verif.Proofs.Trips
/-! # C75: how much work the routing of relations is -/

namespace Seiren
open Spec

theorem endsOf_length (ns : List Nat) (r : NodeRef) : (endsOf ns r).length ≤ 4 := by
  unfold endsOf sidesOf
  cases r with
  | table k => simp
  | column k j => simp only [List.length_map]; split <;> simp

theorem allEnds_length (ns : List Nat) (cs : List (NodeRef × NodeRef)) : (allEnds ns cs).length ≤ 8 * cs.length := by
  unfold allEnds
  induction cs with
  | nil => simp
  | cons c cs ih =>
    rw [List.flatMap_cons, List.length_append, List.length_append, List.length_cons]
    have h1 := endsOf_length ns c.1
    have h2 := endsOf_length ns c.2
    omega

theorem corners_length (ns : List Nat) : (corners ns).length = 4 * ns.length := by
  have : ∀ l : List Rect, (l.flatMap frameCorners).length = 4 * l.length := by
    intro l
    induction l with
    | nil => rfl
    | cons r l ih => rw [List.flatMap_cons, List.length_append, ih, List.length_cons]; simp [frameCorners]; omega
  rw [corners, this]
  simp [tableRects]

/-- The four x coordinates of the streets between the columns of tables. -/
def streetXs : List Rat := [10, 390, 770, 1150]

/-- The x coordinates of the middles of the tables. -/
def middleXs : List Rat := [200, 580, 960]

/-- The heights of the upper and lower sides of the frames. -/
def frameYs (ns : List Nat) : List Rat :=
  (tableRects ns).flatMap fun r => [r.origin.y - 40, r.origin.y + r.size.height + 40]

theorem frameYs_length (ns : List Nat) : (frameYs ns).length = 2 * ns.length := by
  have : ∀ l : List Rect, (l.flatMap fun r => [r.origin.y - 40, r.origin.y + r.size.height + 40]).length = 2 * l.length := by
    intro l
    induction l with
    | nil => rfl
    | cons r l ih => rw [List.flatMap_cons, List.length_append, ih, List.length_cons]; simp; omega
  rw [frameYs, this]
  simp [tableRects]

/-- The height of the left and right ends of a table or column. -/
def middleY (ns : List Nat) (r : NodeRef) : Rat := (refRect ns r).origin.y + (refRect ns r).size.height / 2

/-- A list that contains all places. -/
def placeBound (ns : List Nat) (cs : List (NodeRef × NodeRef)) : List RouteNodeData :=
  ((corners ns).map fun p => ⟨p, none⟩) ++
  (cs.flatMap fun c => [middleY ns c.1, middleY ns c.2].flatMap fun y => streetXs.map fun x => (⟨⟨x, y⟩, none⟩ : RouteNodeData)) ++
  ((frameYs ns).flatMap fun y => middleXs.map fun x => (⟨⟨x, y⟩, none⟩ : RouteNodeData)) ++
  (allEnds ns cs).map fun e => ⟨e.1, some e.2⟩

theorem placeBound_length (ns : List Nat) (cs : List (NodeRef × NodeRef)) :
    (placeBound ns cs).length ≤ 10 * ns.length + 16 * cs.length := by
  have h1 : ∀ cs : List (NodeRef × NodeRef), (cs.flatMap fun c => [middleY ns c.1, middleY ns c.2].flatMap fun y =>
      streetXs.map fun x => (⟨⟨x, y⟩, none⟩ : RouteNodeData)).length = 8 * cs.length := by
    intro cs
    induction cs with
    | nil => rfl
    | cons c cs ih => rw [List.flatMap_cons, List.length_append, ih, List.length_cons]; simp [streetXs]; omega
  have h2 : ∀ ys : List Rat, (ys.flatMap fun y => middleXs.map fun x => (⟨⟨x, y⟩, none⟩ : RouteNodeData)).length = 3 * ys.length := by
    intro ys
    induction ys with
    | nil => rfl
    | cons y ys ih => rw [List.flatMap_cons, List.length_append, ih, List.length_cons]; simp [middleXs]; omega
  unfold placeBound
  simp only [List.length_append, List.length_map, h1, h2, frameYs_length, corners_length]
  have := allEnds_length ns cs
  omega

theorem mod_three (k : Nat) : k % 3 = 0 ∨ k % 3 = 1 ∨ k % 3 = 2 := by omega

theorem corner_coordinates {ns : List Nat} {j : Point} (h : j ∈ corners ns) : j.x ∈ streetXs ∧ j.y ∈ frameYs ns := by
  rw [corners, List.mem_flatMap] at h
  obtain ⟨r, hr, hj⟩ := h
  have hy : j.y ∈ frameYs ns := by
    rw [frameYs, List.mem_flatMap]
    refine ⟨r, hr, ?_⟩
    simp only [frameCorners, List.mem_cons, List.not_mem_nil, or_false] at hj ⊢
    rcases hj with rfl | rfl | rfl | rfl <;> simp
  refine ⟨?_, hy⟩
  rw [tableRects, List.mem_map] at hr
  obtain ⟨⟨n, k⟩, -, rfl⟩ := hr
  simp only [frameCorners, tableRect, List.mem_cons, List.not_mem_nil, or_false] at hj
  rcases mod_three k with h | h | h <;> rw [h] at hj <;> rcases hj with rfl | rfl | rfl | rfl <;> norm_num [streetXs]

theorem refRect_x (ns : List Nat) (r : NodeRef) :
    (refRect ns r).origin.x + (refRect ns r).size.width / 2 ∈ middleXs := by
  cases r with
  | table k => rcases mod_three k with h | h | h <;> norm_num [refRect, tableRect, h, middleXs]
  | column k j => rcases mod_three k with h | h | h <;> norm_num [refRect, lineRect, h, middleXs]

theorem crossings_bound {ns : List Nat} {cs : List (NodeRef × NodeRef)} {p : Point} (h : p ∈ crossings ns (allEnds ns cs)) :
    (⟨p, none⟩ : RouteNodeData) ∈ placeBound ns cs := by
  unfold crossings at h
  have h := (List.mem_filter.mp h).1
  unfold placeBound
  rw [List.mem_append] at h
  simp only [List.mem_append]
  rcases h with h | h
  · exact .inl (.inl (.inl (List.mem_map.mpr ⟨p, h, rfl⟩)))
  obtain ⟨⟨e, o⟩, he, hp⟩ := List.mem_flatMap.mp h
  obtain ⟨j, hj, rfl⟩ := List.mem_map.mp hp
  obtain ⟨hx, hy⟩ := corner_coordinates (List.mem_filter.mp hj).1
  obtain ⟨c, hc, he⟩ := List.mem_flatMap.mp he
  have key : ∀ r, r = c.1 ∨ r = c.2 → (e, o) ∈ endsOf ns r → (⟨crossingAt e o j, none⟩ : RouteNodeData) ∈ placeBound ns cs := by
    intro r hr he
    obtain ⟨o', -, heq⟩ := List.mem_map.mp he
    simp only [Prod.mk.injEq] at heq
    obtain ⟨rfl, rfl⟩ := heq
    unfold placeBound
    simp only [List.mem_append]
    have horizontal : (⟨⟨j.x, middleY ns r⟩, none⟩ : RouteNodeData) ∈
        cs.flatMap fun c => [middleY ns c.1, middleY ns c.2].flatMap fun y => streetXs.map fun x => (⟨⟨x, y⟩, none⟩ : RouteNodeData) := by
      refine List.mem_flatMap.mpr ⟨c, hc, List.mem_flatMap.mpr ⟨middleY ns r, ?_, List.mem_map.mpr ⟨j.x, hx, rfl⟩⟩⟩
      rcases hr with rfl | rfl <;> simp
    have vertical : (⟨⟨(refRect ns r).origin.x + (refRect ns r).size.width / 2, j.y⟩, none⟩ : RouteNodeData) ∈
        (frameYs ns).flatMap fun y => middleXs.map fun x => (⟨⟨x, y⟩, none⟩ : RouteNodeData) :=
      List.mem_flatMap.mpr ⟨j.y, hy, List.mem_map.mpr ⟨_, refRect_x ns r, rfl⟩⟩
    cases o' with
    | left => exact .inl (.inl (.inr horizontal))
    | right => exact .inl (.inl (.inr horizontal))
    | up => exact .inl (.inr vertical)
    | down => exact .inl (.inr vertical)
  rw [List.mem_append] at he
  have := he.elim (key c.1 (.inl rfl)) (key c.2 (.inr rfl))
  unfold placeBound at this
  simpa only [List.mem_append] using this

theorem places_length (ns : List Nat) (cs : List (NodeRef × NodeRef)) :
    (places ns (allEnds ns cs)).length ≤ 10 * ns.length + 16 * cs.length := by
  refine le_trans ?_ (placeBound_length ns cs)
  refine (List.subperm_of_subset (places_nodup ns _) fun n hn => ?_).length_le
  rw [places, List.mem_eraseDups, List.mem_append, List.mem_map] at hn
  rcases hn with ⟨p, hp, rfl⟩ | hn
  · exact crossings_bound hp
  · exact List.mem_append_right _ hn

theorem addEdges_length (es : List (RouteNodeId × RouteNodeId)) (g : RouteGraph) :
    (es.foldl (fun g (a, b) => g.addEdge a b) g).edges.length ≤ g.edges.length + es.length := by
  induction es generalizing g with
  | nil => exact Nat.le_refl _
  | cons e es ih =>
    refine (ih _).trans ?_
    rw [List.length_cons]
    have : (g.addEdge e.1 e.2).edges.length ≤ g.edges.length + 1 := by
      unfold RouteGraph.addEdge
      split
      · omega
      · simp
    simp only
    omega

theorem toEdges_length (n : Nearest) (a : RouteNodeId) : (n.toEdges a).length ≤ 4 :=
  (List.length_filterMap_le _ _).trans (by simp)

theorem connectNearest_edges_length (doc : Document) (g : RouteGraph) (h : g.edges = []) :
    (connectNearest doc g).edges.length ≤ 4 * (connectNearest doc g).nodes.length := by
  rw [(connect_nodes doc g).1]
  refine (addEdges_length _ _).trans ?_
  rw [h, List.length_nil, Nat.zero_add]
  have hl : ∀ l : List (RouteNodeId × RouteNodeData),
      (l.flatMap fun (a, n) => (nearestOf (collisionRects doc) g n).toEdges a).length ≤ 4 * l.length := by
    intro l
    induction l with
    | nil => simp
    | cons x l ih =>
      rw [List.flatMap_cons, List.length_append, List.length_cons]
      have := toEdges_length (nearestOf (collisionRects doc) g x.2) x.1
      simp only at ih ⊢
      omega
  refine (hl _).trans ?_
  simp [RouteGraph.indexed]

theorem astarLoop_more (q : Queue) (g : RouteGraph) (cost : RouteNodeId → RouteNodeId → Nat) (goal fuel : Nat) (st : AstarState)
    {r : Option (Nat × List RouteNodeId)} (h : astarLoop q g cost goal fuel st = .ok r) (k : Nat) (hk : fuel ≤ k) :
    astarLoop q g cost goal k st = .ok r := by
  induction fuel generalizing st k with
  | zero => simp [astarLoop] at h
  | succ fuel ih =>
    obtain ⟨k, rfl⟩ : ∃ k', k = k' + 1 := ⟨k - 1, by omega⟩
    unfold astarLoop at h ⊢
    split at h
    · next hp => exact h
    · next s node rest hp =>
      simp only at h ⊢
      split at h
      · exact h
      · split
        · next hg => rw [if_pos hg] at h; exact h
        · next hg =>
          rw [if_neg hg] at h
          cases hl : st.estimateScores.lookup node with
          | none =>
            simp only [hl, if_true] at h ⊢
            exact ih _ h k (by omega)
          | some old =>
            simp only [hl] at h ⊢
            split
            · next hv => rw [if_pos hv] at h; exact ih _ h k (by omega)
            · next hv => rw [if_neg hv] at h; exact ih _ h k (by omega)

/-- **C75.** How much work the relations are.  A module with `T` tables and `R` drawn relations has a route graph of at most
`10 T + 16 R` nodes and at most four times as many edges.  For each relation at most 16 searches are made, and each
search ends after at most `2 E + 2` rounds of its loop, where `E` is the number of edges: allowing more rounds changes nothing. -/
theorem C75_effort {q : Queue} {QI : List Entry → Prop} (hq : q.Lawful QI) (m : Module)
    (hsize : (placeNodes m.intoMir).2.size.height ≤ 1000000000) (doc' : Document) (g' : RouteGraph)
    (h : drawEdgePath q (laidOut m.intoMir) .new = .ok (doc', g')) :
    g'.nodes.length ≤ 10 * (definitions m.entries).length + 16 * (connections [] m.entries).length ∧
    g'.edges.length ≤ 4 * g'.nodes.length ∧
    (∀ e ∈ (laidOut m.intoMir).edges, ∀ s t, (laidOut m.intoMir).getNode e.sourceId = some s →
      (laidOut m.intoMir).getNode e.targetId = some t → (portPairs s t).length ≤ 16) ∧
    ∀ start goal, start < g'.nodes.length → ∃ r, ∀ rounds, 2 * g'.edges.length + 2 ≤ rounds →
      astarLoop q g' (edgeCost g') goal rounds
        { visitNext := q.push [] (0, start), scores := [(start, 0)], estimateScores := [], cameFrom := [] } = .ok r := by
  have hroad := C66_road_map hq m hsize doc' g' h
  have hd := drawable_intoMir m
  have hsc := scene_laidOut hd hsize
  obtain ⟨g, es, hg, hdraw, -⟩ := draw_ok hq hsc (edgeEnds_laidOut hd)
  rw [hdraw] at h
  simp only [Except.ok.injEq, Prod.mk.injEq] at h
  obtain ⟨-, rfl⟩ := h
  refine ⟨?_, connectNearest_edges_length _ _ hg.edges, ?_, ?_⟩
  · rw [hroad.1]
    have := places_length (lineNumbers (definitions m.entries)) (connections [] m.entries)
    simpa [lineNumbers] using this
  · intro e he s t hs ht
    rw [(laidOut_edges m.intoMir).1] at he
    have hm := List.mem_map_of_mem (f := fun e : EdgeData => (some e.sourceId, some e.targetId)) he
    rw [(C17_relations m).1, List.mem_map] at hm
    obtain ⟨c, -, heq⟩ := hm
    simp only [Prod.mk.injEq] at heq
    have h1 := portsOf_ref m c.1 e.sourceId heq.1
    have h2 := portsOf_ref m c.2 e.targetId heq.2
    rw [portsOf, show (laidOut m.intoMir).nodes[e.sourceId]? = some s from hs] at h1
    rw [portsOf, show (laidOut m.intoMir).nodes[e.targetId]? = some t from ht] at h2
    have l1 := endsOf_length (lineNumbers (definitions m.entries)) c.1
    have l2 := endsOf_length (lineNumbers (definitions m.entries)) c.2
    rw [← h1] at l1
    rw [← h2] at l2
    simp only [List.length_map] at l1 l2
    have hl : ∀ l : List TerminalPort, (l.flatMap fun src => t.terminalPorts.map fun dst => (src, dst)).length =
        l.length * t.terminalPorts.length := by
      intro l
      induction l with
      | nil => simp
      | cons p l ih => rw [List.flatMap_cons, List.length_append, ih, List.length_map, List.length_cons]; ring
    rw [portPairs, hl]
    exact Nat.mul_le_mul l1 l2
  · intro start goal hs
    have hwf : ∀ e ∈ (connectNearest (laidOut m.intoMir) g).edges, e.1 < (connectNearest (laidOut m.intoMir) g).nodes.length ∧
        e.2 < (connectNearest (laidOut m.intoMir) g).nodes.length :=
      (connect_wellFormed _ g hg.wf).ends
    obtain ⟨r, hr, -⟩ := astar_spec hq _ hwf (edgeCost (connectNearest (laidOut m.intoMir) g)) start goal hs
    exact ⟨r, fun k hk => astarLoop_more _ _ _ _ _ _ hr k hk⟩

set_option maxRecDepth 100000 in
/-- Three tables and one relation: 22 nodes (of at most 46) and 25 edges.  The search from the right end of the first column to
the right end of the other one takes 23 rounds (of at most 52): with 22 it is not finished. -/
example : (drawEdgePath BinHeap.queue (laidOut threeTables.intoMir) .new).toOption.map (fun p =>
      (p.2.nodes.length, p.2.edges.length, [22, 23, 52].map fun k => (astarLoop BinHeap.queue p.2 (edgeCost p.2) 19 k
        { visitNext := BinHeap.queue.push [] (0, 16), scores := [(16, 0)], estimateScores := [], cameFrom := [] }).toOption.isSome)) =
    some (22, 25, [false, true, true]) := by decide +kernel

end Seiren
