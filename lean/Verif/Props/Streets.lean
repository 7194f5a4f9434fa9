import Verif.Proofs.Streets
import Verif.Props.Drawing
/-! # C66, C67: the road map, and shortest routes on it

The route graph of a module is the road map of `Spec/Streets.lean`, which mentions the numbers of lines of the tables and the
connections only.  Every relation is drawn along a shortest route of that map. -/

namespace Seiren
open Spec

theorem shapeRects_eq {doc : Document} (hd : Drawable doc) : shapeRects (laidOut doc) = tableRects (lineCounts doc) := by
  have hb : (laidOut doc).bodyChildren = tables doc := by
    rw [← tables_laidOut]
    unfold Document.bodyChildren tables childrenOf Document.getNode
    cases (laidOut doc).nodes[(laidOut doc).bodyId]? <;> rfl
  have key : ∀ (l : List NodeId) (s : Nat), (∀ k t, l[k]? = some t → rectOf (laidOut doc) t =
        some (tableRect (lineCounts doc) (s + k) (childrenOf doc t).length)) →
      (l.filterMap (laidOut doc).getNode).filterMap NodeData.rect =
        ((l.map fun t => (childrenOf doc t).length).zipIdx s).map fun (n, k) => tableRect (lineCounts doc) k n := by
    intro l
    induction l with
    | nil => intros; rfl
    | cons t l ih =>
      intro s h
      have h0 := h 0 t rfl
      rw [rectOf_eq, Option.bind_eq_some_iff] at h0
      obtain ⟨n, hn, hr⟩ := h0
      rw [List.filterMap_cons_some hn, List.filterMap_cons_some hr, ih (s + 1)]
      · simp
      · intro k t' hk
        have := h (k + 1) t' (by simpa using hk)
        rw [this]
        congr 2
        omega
  rw [shapeRects, hb, key (tables doc) 0]
  · rfl
  · intro k t ht
    rw [rectOf_laidOut, rectOf_table hd.tabular k t ht, Nat.zero_add]

/-- The ports of what a relation end refers to, in order. -/
theorem portsOf_ref (m : Module) (r : NodeRef) (i : NodeId) (hi : nodeOf m.intoMir r = some i) :
    portsOf (laidOut m.intoMir) i = endsOf (lineNumbers (definitions m.entries)) r := by
  have hd := tabular_intoMir m
  have hp := (drawable_intoMir m).noPorts
  have hns : lineCounts m.intoMir = lineNumbers (definitions m.entries) := lineCounts_intoMir m
  rw [nodeOf_intoMir] at hi
  cases r with
  | table k =>
    have ht : (tables m.intoMir)[k]? = some i := by rw [tables_intoMir, recordIds_getElem]; exact hi
    have hcount : (lineNumbers (definitions m.entries))[k]? = some (childrenOf m.intoMir i).length := by
      rw [← hns, lineCounts, List.getElem?_map, ht]; rfl
    rw [portsOf_table hd hp k i ht, hns, endsOf, refRect, hcount, Option.getD_some]
    rfl
  | column k j =>
    obtain ⟨h, hb⟩ := intoMir_nodes m
    simp only [refId, Option.bind_eq_some_iff] at hi
    obtain ⟨d, hk, hi⟩ := hi
    split at hi
    case isFalse => cases hi
    case isTrue hj =>
      cases hi
      have ht : (tables m.intoMir)[k]? = some (1 + sizeOf' ((definitions m.entries).take k) + d.fields.length + 1) := by
        rw [tables_intoMir, recordIds_getElem, refId, hk]; rfl
      have hch := childrenOf_record m.intoMir [bodyNode (recordIds 1 (definitions m.entries))] 1 _ rfl h k d hk
      have hcj : (childrenOf m.intoMir (1 + sizeOf' ((definitions m.entries).take k) + d.fields.length + 1))[j + 1]? =
          some (1 + sizeOf' ((definitions m.entries).take k) + 1 + j) := by
        rw [hch, List.getElem?_range' (by omega)]
        simp only [Option.some.injEq, Nat.one_mul]
        omega
      have hlast : (lineNumbers (definitions m.entries))[k]? = some (j + 2) ↔ j + 1 = d.fields.length + 1 - 1 := by
        simp only [lineNumbers, List.getElem?_map, hk, Option.map_some, Option.some.injEq]
        omega
      rw [portsOf_line hd hp k (j + 1) _ _ ht hcj, hns, hch, List.length_range', lineOrientations, if_neg (by omega),
        if_neg (by omega), endsOf, sidesOf]
      simp only [hlast, refRect]

/-- The ports of a module's edges are the ends of its connections, in order. -/
theorem portsOfEdges_eq (m : Module) :
    (portsOfEdges (laidOut m.intoMir)).map (fun p => (p.location, p.orientation)) =
      allEnds (lineNumbers (definitions m.entries)) (connections [] m.entries) := by
  have hc := (C17_relations m).1
  unfold portsOfEdges allEnds
  rw [(laidOut_edges m.intoMir).1]
  generalize m.intoMir.edges = es at hc
  generalize connections [] m.entries = cs at hc
  induction es generalizing cs with
  | nil =>
    cases cs with
    | nil => rfl
    | cons c cs => simp at hc
  | cons e es ih =>
    cases cs with
    | nil => simp at hc
    | cons c cs =>
      simp only [List.map_cons, List.cons.injEq, Prod.mk.injEq] at hc
      obtain ⟨⟨h1, h2⟩, h3⟩ := hc
      rw [List.flatMap_cons, List.map_append, ih cs h3, List.flatMap_cons]
      congr 1
      rw [← portsOf_ref m c.1 _ h1.symm, ← portsOf_ref m c.2 _ h2.symm]
      have : ∀ (r : NodeRef) (i : NodeId), nodeOf m.intoMir r = some i → ∃ n, (laidOut m.intoMir).nodes[i]? = some n := by
        intro r i hi
        cases hn : (laidOut m.intoMir).nodes[i]? with
        | some n => exact ⟨n, rfl⟩
        | none =>
          have h := portsOf_ref m r i hi
          rw [portsOf, hn] at h
          cases r with
          | table k => simp [endsOf, sidesOf] at h
          | column k j => simp only [endsOf, sidesOf] at h; split at h <;> simp at h
      obtain ⟨s, hs⟩ := this _ _ h1.symm
      obtain ⟨t, ht⟩ := this _ _ h2.symm
      simp only [edgePorts, Document.getNode, hs, ht, portsOf, List.map_append]

/-- The junctions of a module are the crossings. -/
theorem junctionsOf_eq (m : Module) (hsize : (placeNodes m.intoMir).2.size.height ≤ 1000000000) :
    junctionsOf (laidOut m.intoMir) = crossings (lineNumbers (definitions m.entries))
      (allEnds (lineNumbers (definitions m.entries)) (connections [] m.entries)) := by
  have hns : lineCounts m.intoMir = lineNumbers (definitions m.entries) := lineCounts_intoMir m
  have hd := drawable_intoMir m
  have hsc := scene_laidOut hd hsize
  have hs := shapeRects_eq hd
  rw [hns] at hsc hs
  rw [junctionsOf, removeOverlapped_eq hs, crossings, ← portsOfEdges_eq, corners_eq hs]
  have e : crossingJunctions (laidOut m.intoMir) (corners (lineNumbers (definitions m.entries))) =
      ((portsOfEdges (laidOut m.intoMir)).map fun p => (p.location, p.orientation)).flatMap fun e =>
        ((corners (lineNumbers (definitions m.entries))).filter fun j =>
          @decide (Sees (lineNumbers (definitions m.entries)) e.1 e.2 j) (Classical.propDecidable _)).map (crossingAt e.1 e.2) := by
    rw [crossingJunctions, List.flatMap_map, portsOfEdges, List.flatMap_assoc]
    apply List.flatMap_congr
    intro e he
    apply List.flatMap_congr
    intro p hp
    rw [junctionsFromTerminalPort_eq hsc hs (List.mem_flatMap.mpr ⟨e, he, hp⟩)]
    intro j hj
    rw [← corners_eq hs] at hj
    obtain ⟨k, n, -, hx, -⟩ := (hsc.corner_iff j).mp hj
    have hm : (2000 : Rat) ≤ f32Max := by norm_num [f32Max]
    rcases col_cases k with ⟨-, hc⟩ | ⟨-, hc⟩ | ⟨-, hc⟩ <;> rw [hc] at hx <;> rcases hx with hx | hx <;> rw [hx] <;>
      constructor <;> linarith
  rw [e]
  apply List.filter_congr
  intro p _
  congr 1

/-! ## C66 -/

/-- **C66.** The route graph built for a module: its nodes are the places of the road map, in order, and two of them are joined
exactly if there is a road between them. -/
theorem C66_road_map {q : Queue} {QI : List Entry → Prop} (hq : q.Lawful QI) (m : Module)
    (hsize : (placeNodes m.intoMir).2.size.height ≤ 1000000000) (doc' : Document) (g' : RouteGraph)
    (h : drawEdgePath q (laidOut m.intoMir) .new = .ok (doc', g')) :
    g'.nodes = places (lineNumbers (definitions m.entries)) (allEnds (lineNumbers (definitions m.entries)) (connections [] m.entries)) ∧
      ∀ a b, Joined g' a b ↔ Road (lineNumbers (definitions m.entries)) g'.nodes a b := by
  have hns : lineCounts m.intoMir = lineNumbers (definitions m.entries) := lineCounts_intoMir m
  have hd := drawable_intoMir m
  have hsc := scene_laidOut hd hsize
  obtain ⟨g, es, hg, hdraw, -⟩ := draw_ok hq hsc (edgeEnds_laidOut hd)
  rw [hdraw] at h
  simp only [Except.ok.injEq, Prod.mk.injEq] at h
  obtain ⟨-, rfl⟩ := h
  rw [hns] at hsc
  constructor
  · rw [built_nodes hg.built, junctionsOf_eq m hsize, places, ← portsOfEdges_eq, List.map_map]
    rfl
  · intro a b
    have hno : ¬ Joined g a b := by simp [Joined, hg.edges]
    rw [joined_connect, (connect_nodes _ g).1]
    simp only [hno, false_or]
    rw [chosen_iff _ _ g hg.wf fun d n k hn hk hl => hsc.obstructed_iff hg d n k hn hk hl,
      chosen_iff _ _ g hg.wf fun d n k hn hk hl => hsc.obstructed_iff hg d n k hn hk hl, Road, ← exists_or]

/-! ## C67 -/

/-- A shortest route on the road map for connection `c`.  If several pairs of ends have equally short routes, it joins
the first of these pairs. -/
def Spec.ShortestRoute (ns : List Nat) (cs : List (NodeRef × NodeRef)) (c : NodeRef × NodeRef) (ps : List Point) : Prop :=
  IsRoute ns cs c ps ∧ (∀ ps', IsRoute ns cs c ps' → routeCost ps ≤ routeCost ps') ∧
    ∃ (k : Nat) (x y : Point × Orientation), (endPairs (endsOf ns c.1) (endsOf ns c.2))[k]? = some (x, y) ∧
      ps.head? = some x.1 ∧ ps.getLast? = some y.1 ∧
      ∀ (k' : Nat) (x' y' : Point × Orientation), k' < k → (endPairs (endsOf ns c.1) (endsOf ns c.2))[k']? = some (x', y') →
        ∀ ps', (∃ w, Follows ns (places ns (allEnds ns cs)) w ps') → ps'.head? = some x'.1 → ps'.getLast? = some y'.1 →
          routeCost ps < routeCost ps'

/-- **C67.** Every relation is drawn along a shortest route on the road map of the module, between the first ends that have
one. -/
theorem C67_shortest_routes {q : Queue} {QI : List Entry → Prop} (hq : q.Lawful QI) (m : Module)
    (hsize : (placeNodes m.intoMir).2.size.height ≤ 1000000000) (doc' : Document) (g' : RouteGraph)
    (h : drawEdgePath q (laidOut m.intoMir) .new = .ok (doc', g')) :
    List.Forall₂ (fun c e => ∃ ps, e.pathPoints = some ps ∧
        ShortestRoute (lineNumbers (definitions m.entries)) (connections [] m.entries) c ps)
      (connections [] m.entries) doc'.edges := by
  obtain ⟨hnodes, hroads⟩ := C66_road_map hq m hsize doc' g' h
  have hd := drawable_intoMir m
  obtain ⟨doc2, g2, h2, -, -, hps, hmap⟩ := drawn_connections hq m hsize
  rw [h] at h2
  cases h2
  have hfollow : ∀ w ps, Follows (lineNumbers (definitions m.entries)) g'.nodes w ps ↔ Route g' w ∧ Locations g' w ps := by
    intro w ps
    unfold Follows Route Locations
    simp only [hroads]
  apply List.forall₂_iff_get.mpr
  have hlen : (connections [] m.entries).length = doc'.edges.length := by
    simpa using (congrArg List.length hmap).symm
  refine ⟨hlen, ?_⟩
  intro i hi hi'
  simp only [List.get_eq_getElem]
  generalize he : doc'.edges[i] = e
  generalize hc : (connections [] m.entries)[i] = c
  have hends : nodeOf m.intoMir c.1 = some e.sourceId ∧ nodeOf m.intoMir c.2 = some e.targetId := by
    have := congrArg (fun l => l[i]?) hmap
    simp only [List.getElem?_map, List.getElem?_eq_getElem hi, List.getElem?_eq_getElem hi', Option.map_some, Option.some.injEq,
      Prod.mk.injEq, he, hc] at this
    exact ⟨this.1.symm, this.2.symm⟩
  have hmem : e ∈ doc'.edges := by rw [← he]; exact List.getElem_mem hi'
  obtain ⟨ps, hpe, -⟩ := hps e hmem
  obtain ⟨⟨w, hw, -, hl⟩, hmin⟩ := C36_paths_shortest hq m.intoMir hd hsize doc' g' h e hmem ps hpe
  obtain ⟨a, z, o, o', ha, hz, ho, ho'⟩ := C33_paths_connect_ports hq m.intoMir hd hsize doc' g' h e hmem ps hpe
  rw [portsOf_ref m _ _ hends.1] at ho
  rw [portsOf_ref m _ _ hends.2] at ho'
  refine ⟨ps, hpe, ⟨⟨w, ?_⟩, ⟨a, o, ha, ho⟩, z, o', hz, ho'⟩, ?_, ?_⟩
  · rw [← hnodes, hfollow]; exact ⟨hw, hl⟩
  · rintro ps' ⟨⟨w', hw'⟩, ⟨a', o1, ha', ho1⟩, z', o2, hz', ho2⟩
    rw [← hnodes, hfollow] at hw'
    rw [← portsOf_ref m _ _ hends.1] at ho1
    rw [← portsOf_ref m _ _ hends.2] at ho2
    exact hmin w' ps' a' z' o1 o2 hw'.1 hw'.2 ha' hz' ho1 ho2
  · obtain ⟨k, x, y, h1, h2, h3, h4⟩ := C36_first_ends hq m.intoMir hd hsize doc' g' h e hmem ps hpe
    rw [portsOf_ref m _ _ hends.1, portsOf_ref m _ _ hends.2] at h1 h4
    refine ⟨k, x, y, h1, h2, h3, ?_⟩
    rintro k' x' y' hk hx ps' ⟨w', hw'⟩ hx1 hy1
    rw [← hnodes, hfollow] at hw'
    exact h4 k' x' y' hk hx w' ps' hw'.1 hw'.2 hx1 hy1

/-! The road map of `threeTables`, whose tables have 2, 2 and 3 lines and which asks for one connection. -/

set_option maxRecDepth 100000 in
example : lineNumbers (definitions threeTables.entries) = [2, 2, 3] ∧
    connections [] threeTables.entries = [(.column 0 0, .column 2 1)] ∧
    allEnds [2, 2, 3] [(.column 0 0, .column 2 1)] = [(⟨350, 205 / 2⟩, .right), (⟨200, 120⟩, .down), (⟨50, 205 / 2⟩, .left),
      (⟨1110, 275 / 2⟩, .right), (⟨960, 155⟩, .down), (⟨810, 275 / 2⟩, .left)] := by decide +kernel

/-- It has 22 places, and the path that is drawn is a shortest route of cost 539. -/
example : (places [2, 2, 3] (allEnds [2, 2, 3] [(.column 0 0, .column 2 1)])).length = 22 ∧
    ShortestRoute [2, 2, 3] [(.column 0 0, .column 2 1)] (.column 0 0, .column 2 1)
      [⟨350, 205/2⟩, ⟨390, 205/2⟩, ⟨390, 160⟩, ⟨770, 160⟩, ⟨770, 275/2⟩, ⟨810, 275/2⟩] ∧
    routeCost [⟨350, 205/2⟩, ⟨390, 205/2⟩, ⟨390, 160⟩, ⟨770, 160⟩, ⟨770, 275/2⟩, ⟨810, 275/2⟩] = 539 := by
  have h1 : (placeNodes threeTables.intoMir).2.size.height ≤ 1000000000 := by decide +kernel
  obtain ⟨doc', g', h, -⟩ := C32_module threeTables h1
  have h2 : (drawEdgePath BinHeap.queue (laidOut threeTables.intoMir) .new).toOption.map (fun p => (p.2.nodes.length, p.1.edges.map (·.pathPoints))) =
      some (22, [some [⟨350, 205/2⟩, ⟨390, 205/2⟩, ⟨390, 160⟩, ⟨770, 160⟩, ⟨770, 275/2⟩, ⟨810, 275/2⟩]]) := by decide +kernel
  rw [h] at h2
  simp only [Except.toOption, Option.map_some, Option.some.injEq, Prod.mk.injEq] at h2
  have e1 : lineNumbers (definitions threeTables.entries) = [2, 2, 3] := by decide +kernel
  have e2 : connections [] threeTables.entries = [(.column 0 0, .column 2 1)] := by decide +kernel
  have h3 := (C66_road_map BinHeap.lawful threeTables h1 doc' g' h).1
  have h4 := C67_shortest_routes BinHeap.lawful threeTables h1 doc' g' h
  rw [e1, e2] at h3 h4
  refine ⟨by rw [← h3]; exact h2.1, ?_, by decide +kernel⟩
  obtain ⟨-, h2⟩ := h2
  cases hes : doc'.edges with
  | nil => rw [hes] at h2; cases h2
  | cons e es =>
    rw [hes] at h2 h4
    simp only [List.map_cons, List.cons.injEq] at h2
    cases h4 with
    | cons h5 _ =>
      obtain ⟨ps, hp, hs⟩ := h5
      rw [h2.1] at hp
      cases hp
      exact hs

end Seiren
