import Verif.Proofs.StepsLower
import Verif.Props.OutputQuadratic
/-! # C100: how many steps the routing of relations takes -/

namespace Seiren
open Steps Spec StepBound

/-- **C100**: the counted functions do what the functions without counts do, on every document and with every queue. -/
theorem C100_same (q : Queue) (doc : Document) (g : RouteGraph) : (sDrawEdgePath q doc g).val = drawEdgePath q doc g :=
  sDrawEdgePath_val q doc g

theorem addNodeAt_edges {g g' : RouteGraph} {loc : Point} {o : Option Orientation} {i : RouteNodeId} (h : g.addNodeAt loc o = .ok (g', i)) :
    g'.edges = g.edges := by
  unfold RouteGraph.addNodeAt at h
  split at h
  · split at h
    · cases h
    · cases h; rfl
  · cases h; rfl

theorem addJunctions_edges {g g' : RouteGraph} {js : List Point} (h : addJunctions g js = .ok g') : g'.edges = g.edges := by
  induction js generalizing g with
  | nil => cases h; rfl
  | cons j js ih =>
    unfold addJunctions at h
    split at h
    · cases h
    · next g1 i hg => exact (ih h).trans (addNodeAt_edges hg)

theorem addTerminalPorts_edges {g g' : RouteGraph} {ps : List TerminalPort} (h : addTerminalPorts g ps = .ok g') : g'.edges = g.edges := by
  induction ps generalizing g with
  | nil => cases h; rfl
  | cons p ps ih =>
    unfold addTerminalPorts RouteGraph.addTerminalPort at h
    split at h
    · cases h
    · next g1 i hg =>
      split at hg
      · cases hg
      · next g2 j hg2 => cases hg; exact (ih h).trans (addNodeAt_edges (g' := g2) hg2)

/-- The steps for `T` tables and `R` relations, if the route graph has `N` nodes. -/
def stepBound (T R N : Nat) : Nat :=
  T + R * (8 * (6 * T + 1) + 1) + (T + (4 * T + R * (32 * T)) * (T + 1)) + (4 * T + R * (32 * T)) * (N + 1) + R * (8 * (N + 1) + 1) +
    (T + N * (N * (T + 1) + 5) + 4 * N * (4 * N + 2)) + R * (16 * (18 * N + 3) + N + 6) + R

theorem drawSteps_le {q : Queue} {QI : List Entry → Prop} (hq : q.Lawful QI) {doc : Document} (hf : FewPorts doc) {G : RouteGraph}
    (hb : buildRouteGraph doc .new = .ok G) (hE : G.edges.length ≤ 4 * G.nodes.length) :
    (sDrawEdgePath q doc .new).steps ≤ stepBound doc.bodyChildren.length doc.edges.length G.nodes.length := by
  have hcollect := sCollectPaths_le hq hf G doc.edges fun _ h => h
  have hc2 : doc.edges.length * (16 * (4 * G.edges.length + 2 * G.nodes.length + 3) + G.nodes.length + 6) ≤
      doc.edges.length * (16 * (18 * G.nodes.length + 3) + G.nodes.length + 6) := Nat.mul_le_mul_left _ (by omega)
  have hrest : (sDrawEdgePath q doc .new).steps ≤ (sBuildRouteGraph doc .new).steps +
      doc.edges.length * (16 * (18 * G.nodes.length + 3) + G.nodes.length + 6) + doc.edges.length := by
    rw [sDrawEdgePath, andThenE_steps, sBuildRouteGraph_val, hb]
    simp only [andThenE_steps]
    cases (sCollectPaths q doc G doc.edges).val with
    | error e => simp only; omega
    | ok paths =>
      have ha := sAssignPaths_le doc.edges paths
      simp only
      cases (sAssignPaths doc.edges paths).val <;> simp only [done_steps] <;> omega
  have h1 := sJunctionsAroundShapes_le doc
  have hj := junctionsAroundShapes_length doc
  have h2 : (sCrossingJunctions doc (junctionsAroundShapes doc)).steps ≤ doc.edges.length * (8 * (6 * doc.bodyChildren.length + 1) + 1) :=
    (sCrossingJunctions_le hf _).trans (Nat.mul_le_mul_left _ (by omega))
  have hl : (junctionsAroundShapes doc ++ crossingJunctions doc (junctionsAroundShapes doc)).length ≤
      4 * doc.bodyChildren.length + doc.edges.length * (32 * doc.bodyChildren.length) := by
    rw [List.length_append]
    have := (crossingJunctions_length hf (junctionsAroundShapes doc)).trans (Nat.mul_le_mul_left doc.edges.length
      (by omega : 8 * (junctionsAroundShapes doc).length ≤ 32 * doc.bodyChildren.length))
    omega
  have h3 := (sRemoveOverlapped_le doc (junctionsAroundShapes doc ++ crossingJunctions doc (junctionsAroundShapes doc))).trans
    (Nat.add_le_add_left (Nat.mul_le_mul_right _ hl) _)
  have hl2 : (removeOverlapped doc (junctionsAroundShapes doc ++ crossingJunctions doc (junctionsAroundShapes doc))).length ≤
      4 * doc.bodyChildren.length + doc.edges.length * (32 * doc.bodyChildren.length) := (List.length_filter_le _ _).trans hl
  unfold buildRouteGraph at hb
  simp only at hb
  split at hb
  · cases hb
  next g1 hg1 =>
  split at hb
  · cases hb
  next g2 hg2 =>
  simp only [Except.ok.injEq] at hb
  have hN : g2.nodes.length = G.nodes.length := by rw [← hb, (connect_nodes doc g2).1]
  have h4 := sAddJunctions_le hg1
  have h5 := sAddTerminalPorts_le hf hg2
  have h6 := sConnectNearest_le doc g2 (by rw [addTerminalPorts_edges hg2, addJunctions_edges hg1]; rfl)
  have hgrow := addTerminalPorts_grows hg2
  have h4' : (removeOverlapped doc (junctionsAroundShapes doc ++ crossingJunctions doc (junctionsAroundShapes doc))).length * (g1.nodes.length + 1) ≤
      (4 * doc.bodyChildren.length + doc.edges.length * (32 * doc.bodyChildren.length)) * (G.nodes.length + 1) :=
    Nat.mul_le_mul hl2 (by omega)
  have hbuild : (sBuildRouteGraph doc .new).steps = (sJunctionsAroundShapes doc).steps + ((sCrossingJunctions doc (junctionsAroundShapes doc)).steps +
      ((sRemoveOverlapped doc (junctionsAroundShapes doc ++ crossingJunctions doc (junctionsAroundShapes doc))).steps +
        ((sAddJunctions .new (removeOverlapped doc (junctionsAroundShapes doc ++ crossingJunctions doc (junctionsAroundShapes doc)))).steps +
          ((sAddTerminalPorts doc g1).steps + (sConnectNearest doc g2).steps)))) := by
    rw [sBuildRouteGraph]
    simp only [andThen_steps, andThenE_steps, sJunctionsAroundShapes_val, sCrossingJunctions_val, sRemoveOverlapped_val, sAddJunctions_val, hg1,
      sAddTerminalPorts_val, hg2, done_steps, Nat.add_zero]
  rw [hN] at h5 h6
  unfold stepBound
  omega

theorem fewPorts_laidOut (m : Module) : FewPorts (laidOut m.intoMir) := by
  intro e he s t hs ht
  rw [(laidOut_edges m.intoMir).1] at he
  have hm := List.mem_map_of_mem (f := fun e : EdgeData => (some e.sourceId, some e.targetId)) he
  rw [(C17_relations m).1, List.mem_map] at hm
  obtain ⟨c, -, heq⟩ := hm
  simp only [Prod.mk.injEq] at heq
  have h1 := portsOf_ref m c.1 e.sourceId heq.1
  have h2 := portsOf_ref m c.2 e.targetId heq.2
  rw [portsOf, show (laidOut m.intoMir).nodes[e.sourceId]? = some s from hs] at h1
  rw [portsOf, show (laidOut m.intoMir).nodes[e.targetId]? = some t from ht] at h2
  have l1 := endsOf_length (lineNumbers (definitions m.entries)) c.1
  have l2 := endsOf_length (lineNumbers (definitions m.entries)) c.2
  rw [← h1] at l1
  rw [← h2] at l2
  simpa using And.intro l1 l2

theorem stepBound_mono {T T' R R' N N' : Nat} (hT : T ≤ T') (hR : R ≤ R') (hN : N ≤ N') : stepBound T R N ≤ stepBound T' R' N' := by
  unfold stepBound
  gcongr

/-- **C100**: to route the relations of a module with `T` tables and `R` drawn relations takes at most `800 (T + R)³ + 9600 (T + R)²` steps. -/
theorem C100_at_most {q : Queue} {QI : List Entry → Prop} (hq : q.Lawful QI) (m : Module)
    (hsize : (placeNodes m.intoMir).2.size.height ≤ 1000000000) :
    let M := (definitions m.entries).length + (connections [] m.entries).length
    (sDrawEdgePath q (laidOut m.intoMir) .new).steps ≤ 800 * M ^ 3 + 9600 * M ^ 2 := by
  intro M
  have hd := drawable_intoMir m
  obtain ⟨g, es, hg, hdraw, -⟩ := draw_ok hq (scene_laidOut hd hsize) (edgeEnds_laidOut hd)
  obtain ⟨h1, h2, -⟩ := C75_effort hq m hsize _ _ hdraw
  have h := drawSteps_le hq (fewPorts_laidOut m) hg.built h2
  have hT : (laidOut m.intoMir).bodyChildren.length = (definitions m.entries).length := by
    rw [Seiren.bodyChildren_eq, tables_laidOut, tables_intoMir, recordIds_length]
  have hR : (laidOut m.intoMir).edges.length = (connections [] m.entries).length := by
    rw [(laidOut_edges m.intoMir).1]
    simpa using congrArg List.length (C17_relations m).1
  refine h.trans ((stepBound_mono (T' := M) (R' := M) (N' := 16 * M) (by omega) (by omega) (by omega)).trans ?_)
  rcases Nat.eq_zero_or_pos M with h0 | h0
  · rw [h0]; rfl
  · have e : stepBound M M (16 * M) = 800 * M ^ 3 + 9284 * M ^ 2 + 292 * M := by unfold stepBound; ring
    rw [e]
    nlinarith [Nat.mul_le_mul_left M h0]

/-- **C100**: it takes at least `(2 T + 4 R ⌊T/3⌋) (T + 1)` steps, for every module: the corners left of the tables and the crossings of a
relation's lines with the streets left of the tables lie in no table, so `remove_overlapped_junction_nodes` looks at all tables for each of them. -/
theorem C100_at_least (q : Queue) (m : Module) (g : RouteGraph) :
    let T := (definitions m.entries).length
    (2 * T + (connections [] m.entries).length * (4 * (T / 3))) * (T + 1) ≤ (sDrawEdgePath q (laidOut m.intoMir) g).steps :=
  draw_min q m g

/-- **C100**: so even without a relation more than `2 T²` steps are taken. -/
theorem C100_tables (q : Queue) (m : Module) (g : RouteGraph) : 2 * (definitions m.entries).length ^ 2 ≤ (sDrawEdgePath q (laidOut m.intoMir) g).steps := by
  refine le_trans ?_ (C100_at_least q m g)
  nlinarith [Nat.zero_le ((connections [] m.entries).length * (4 * ((definitions m.entries).length / 3)))]

/-- **C100**, in terms of the source: for `n` ≤ 47 000 000 characters at most `30 n³ + 1067 n²` steps. -/
theorem C100_source (src : Str) (hn : src.length ≤ 47000000) (m : Module) (hm : Contains src m) :
    (sDrawEdgePath BinHeap.queue (laidOut m.intoMir) .new).steps ≤ 30 * src.length ^ 3 + 1067 * src.length ^ 2 := by
  obtain ⟨h1, -, -, -⟩ := C88_sizes src m hm
  have h := C100_at_most BinHeap.lawful m (C88_height src m hm hn)
  simp only at h
  refine h.trans ?_
  have hM : 3 * ((definitions m.entries).length + (connections [] m.entries).length) ≤ src.length := by omega
  generalize (definitions m.entries).length + (connections [] m.entries).length = M at hM
  have e3 : (3 * M) ^ 3 ≤ src.length ^ 3 := Nat.pow_le_pow_left hM 3
  have e2 : (3 * M) ^ 2 ≤ src.length ^ 2 := Nat.pow_le_pow_left hM 2
  have : (3 * M) ^ 3 = 27 * M ^ 3 := by ring
  have : (3 * M) ^ 2 = 9 * M ^ 2 := by ring
  omega

/-- **C100**: and so no bound of lower degree holds: there are sources of `44 N + 62` bytes, without errors, whose relations take more than `12 N³` steps. -/
theorem C100_cubic (N : Nat) : ∃ src m, byteLen src = 44 * N + 62 ∧ Contains src m ∧ errorsOf src = [] ∧
    ∀ q g, 12 * N ^ 3 ≤ (sDrawEdgePath q (laidOut m.intoMir) g).steps := by
  obtain ⟨hc, hl⟩ := tall_source N
  have he : errorsOf (tallSource N) = [] := by
    have := errors_length (tallSource N)
    rw [hc] at this
    exact List.length_eq_zero_iff.mp this
  refine ⟨tallSource N, tallModule N, hl, (parse_contains _ _).mp (by rw [hc]), he, fun q g => ?_⟩
  have h := C100_at_least q (tallModule N) g
  have hT : (definitions (tallModule N).entries).length = 3 * N + 3 := by rw [tall_definitions]; simp [tallDefs]
  have hR : (connections [] (tallModule N).entries).length = N := by rw [tall_connections, List.length_replicate]
  simp only [hT, hR, show (3 * N + 3) / 3 = N + 1 by omega] at h
  refine le_trans ?_ h
  calc 12 * N ^ 3 = N * (4 * N) * (3 * N) := by ring
    _ ≤ (2 * (3 * N + 3) + N * (4 * (N + 1))) * (3 * N + 3 + 1) := by
      refine Nat.mul_le_mul (le_trans ?_ (Nat.le_add_left _ _)) (by omega)
      gcongr; omega

/-- **C100**: no multiple of the square of the length bounds the steps of all sources. -/
theorem C100_no_quadratic_bound (q : Queue) : ¬ ∃ a : Nat, ∀ src m, Contains src m → errorsOf src = [] →
    (sDrawEdgePath q (laidOut m.intoMir) .new).steps ≤ a * (byteLen src) ^ 2 := by
  rintro ⟨a, h⟩
  obtain ⟨src, m, hl, hm, he, hs⟩ := C100_cubic (1000 * a + 1)
  have h1 := h src m hm he
  have h2 := hs q .new
  rw [hl] at h1
  have h3 : 44 * (1000 * a + 1) + 62 ≤ 106 * (1000 * a + 1) := by omega
  have h4 := Nat.mul_le_mul_left a (Nat.pow_le_pow_left h3 2)
  have h5 : a * (106 * (1000 * a + 1)) ^ 2 = 11236 * a * (1000 * a + 1) ^ 2 := by ring
  have h6 : 12 * (1000 * a + 1) ^ 3 = (12000 * a + 12) * (1000 * a + 1) ^ 2 := by ring
  have h7 : 11236 * a * (1000 * a + 1) ^ 2 < (12000 * a + 12) * (1000 * a + 1) ^ 2 :=
    Nat.mul_lt_mul_of_pos_right (by omega) (by positivity)
  omega

set_option maxRecDepth 1000000 in
/-- Three tables, four columns and a relation: 2234 steps. -/
example : (sDrawEdgePath BinHeap.queue (laidOut threeTables.intoMir) .new).steps = 2234 ∧ (placeNodes threeTables.intoMir).2.size.height ≤ 1000000000 := by
  decide +kernel

end Seiren
