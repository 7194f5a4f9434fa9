import Verif.Proofs.StepsLeast
import Verif.Props.Steps
/-! # C100, from below: every loop of `draw_edge_path` is counted

`C100_at_most` would also hold if some loop were left out of the count.  Here is what each of them contributes at least. -/

namespace Seiren
open Spec Steps StepBound

theorem map_eq_of_pairs {α β γ δ : Type} {f : α → γ} {g : β → γ} {A : α → δ} {B : β → δ} (hAB : ∀ a b, f a = g b → A a = B b) :
    ∀ (as : List α) (bs : List β), as.map f = bs.map g → as.map A = bs.map B
  | [], [], _ => rfl
  | [], b :: bs, h => by simp at h
  | a :: as, [], h => by simp at h
  | a :: as, b :: bs, h => by
    simp only [List.map_cons, List.cons.injEq] at h ⊢
    exact ⟨hAB a b h.1, map_eq_of_pairs hAB as bs h.2⟩

/-- The ports of an end of a relation. -/
theorem ports_length (m : Module) (r : NodeRef) (i : NodeId) (hi : nodeOf m.intoMir r = some i) :
    ∃ n, (laidOut m.intoMir).getNode i = some n ∧ n.terminalPorts.length = (endsOf (lineNumbers (definitions m.entries)) r).length := by
  obtain ⟨n, hn, -⟩ := left_end m r i hi
  refine ⟨n, hn, ?_⟩
  rw [← portsOf_ref m r i hi, portsOf]
  have : (laidOut m.intoMir).nodes[i]? = some n := hn
  rw [this]
  simp

/-- **C100**, from below: with `T` tables, `R` relations with `P` ports at their ends, and a route graph with `n` nodes and `E` edges,
`draw_edge_path` takes at least so many steps: the tables and their corners (`7 T`), the tables for each port (`P (6 T + 2)`), the nodes
looked through for each new node (`n (n - 1) / 2`) and for the neighbours of each node (`n (n + 5)`), the edges (`2 E`), the pairs of ports of
each relation, and each found path three times. -/
theorem C100_every_loop (q : Queue) (m : Module) (doc' : Document) (g' : RouteGraph)
    (h : drawEdgePath q (laidOut m.intoMir) .new = .ok (doc', g')) :
    let T := (definitions m.entries).length
    let R := (connections [] m.entries).length
    let ends := fun r => (endsOf (lineNumbers (definitions m.entries)) r).length
    let P := ((connections [] m.entries).map fun c => ends c.1 + ends c.2).sum
    let n := g'.nodes.length
    7 * T + 4 * R + P * (6 * T + 2) + n * (n - 1) / 2 + n * (n + 5) + 2 * g'.edges.length +
      ((connections [] m.entries).map fun c => ends c.1 * (ends c.2 + 1)).sum +
      3 * (doc'.edges.map fun e => (e.pathPoints.getD []).length).sum ≤ (sDrawEdgePath q (laidOut m.intoMir) .new).steps := by
  intro T R ends P n
  have hT : (laidOut m.intoMir).bodyChildren.length = T := by
    rw [Seiren.bodyChildren_eq, tables_laidOut, tables_intoMir, recordIds_length]
  have hS : (shapeRects (laidOut m.intoMir)).length = T := by
    rw [shapeRects_eq (drawable_intoMir m), lineCounts_intoMir]
    simp [tableRects, T]
  have hR : (laidOut m.intoMir).edges.length = R := by
    rw [(laidOut_edges m.intoMir).1]
    simpa using congrArg List.length (C17_relations m).1
  have hrel := (C17_relations m).1
  rw [← (laidOut_edges m.intoMir).1] at hrel
  have hP : ((laidOut m.intoMir).edges.flatMap (edgePorts (laidOut m.intoMir))).length = P := by
    rw [List.length_flatMap]
    congr 1
    refine map_eq_of_pairs (fun e c hec => ?_) _ _ hrel
    simp only [Prod.mk.injEq] at hec
    obtain ⟨s, hs, hls⟩ := ports_length m _ _ hec.1.symm
    obtain ⟨t, ht, hlt⟩ := ports_length m _ _ hec.2.symm
    simp only [edgePorts, hs, ht, List.length_append, hls, hlt, ends]
  have hW : (laidOut m.intoMir).edges.map (portWork (laidOut m.intoMir)) = (connections [] m.entries).map fun c => ends c.1 * (ends c.2 + 1) := by
    refine map_eq_of_pairs (fun e c hec => ?_) _ _ hrel
    simp only [Prod.mk.injEq] at hec
    obtain ⟨s, hs, hls⟩ := ports_length m _ _ hec.1.symm
    obtain ⟨t, ht, hlt⟩ := ports_length m _ _ hec.2.symm
    simp only [portWork, hs, ht, hls, hlt, ends]
  have := le_sDrawEdgePath h
  rw [hT, hS, hR, hP, hW] at this
  have e1 : P * (T + 5 * T + 2) = P * (6 * T + 2) := by ring
  have e2 : pairs g'.nodes.length = n * (n - 1) / 2 := rfl
  rw [e1, e2] at this
  refine le_trans (le_of_eq ?_) this
  simp only [n]
  ring

set_option maxRecDepth 1000000 in
/-- Three tables and a relation whose two ends have three ports each: 22 nodes, 25 edges and six points on the line, so at least
21 + 4 + 120 + 231 + 594 + 50 + 12 + 18 = 1050 of the 2234 steps (see the example of C102) are accounted for. -/
example : (match drawEdgePath BinHeap.queue (laidOut threeTables.intoMir) .new with
      | .ok r => [r.2.nodes.length, r.2.edges.length, (r.1.edges.map fun (e : EdgeData) => (e.pathPoints.getD []).length).sum]
      | .error _ => []) = [22, 25, 6] ∧
    (definitions threeTables.entries).length = 3 ∧
    ((connections [] threeTables.entries).map fun c =>
      ((endsOf (lineNumbers (definitions threeTables.entries)) c.1).length,
        (endsOf (lineNumbers (definitions threeTables.entries)) c.2).length)) = [(3, 3)] := by
  decide +kernel

end Seiren
