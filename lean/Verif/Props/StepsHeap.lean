import Verif.Proofs.StepsHeap
import Verif.Props.Steps
/-! # C104: how often the searches compare entries of the heap -/

namespace Seiren
open Steps Spec StepBound

/-- **C104**: the counted functions do what the functions without counts do: both operations of the heap on every array, and `draw_edge_path` on every
document. -/
theorem C104_same (h : List Entry) (e : Entry) (doc : Document) (g : RouteGraph) :
    (HoleHeap.cPush h e).val = HoleHeap.push h e ∧ (HoleHeap.cPop h).val = HoleHeap.pop h ∧
    (cDrawEdgePath doc g).val = drawEdgePath HoleHeap.queue doc g :=
  ⟨HoleHeap.cPush_val h e, HoleHeap.cPop_val h, cDrawEdgePath_val doc g⟩

/-- **C104**: to put an entry into a heap of `n` takes at most `⌊log₂ (n + 1)⌋` comparisons, and exactly as many for an entry that is
better than all others. -/
theorem C104_push (h : List Entry) (e : Entry) :
    (HoleHeap.cPush h e).steps ≤ Nat.log2 (h.length + 1) ∧ ((∀ x ∈ h, e.1 < x.1) → (HoleHeap.cPush h e).steps = Nat.log2 (h.length + 1)) :=
  ⟨HoleHeap.cPush_le h e, HoleHeap.cPush_exact h e⟩

/-- **C104**: to take the best entry out of a heap of `n` takes at most `2 ⌊log₂ (n - 1)⌋` comparisons, and never less than `⌊log₂ (n - 1)⌋ - 1`. -/
theorem C104_pop (h : List Entry) :
    (HoleHeap.cPop h).steps ≤ 2 * Nat.log2 (h.length - 1) ∧ (2 ≤ h.length → Nat.log2 (h.length - 1) - 1 ≤ (HoleHeap.cPop h).steps) :=
  ⟨HoleHeap.cPop_le h, fun hl => by have := HoleHeap.cPop_ge h hl; omega⟩

/-- **C104**: one search in a graph with `E` edges takes at most `(6 E + 2) ⌊log₂ (2 E + 1)⌋` comparisons. -/
theorem C104_search (g : RouteGraph) (cost : RouteNodeId → RouteNodeId → Nat) (start goal : RouteNodeId) :
    (cAstar g cost start goal).val = astar HoleHeap.queue g cost start goal ∧
    (cAstar g cost start goal).steps ≤ (6 * g.edges.length + 2) * Nat.log2 (2 * g.edges.length + 1) :=
  ⟨cAstar_val g cost start goal, cAstar_le g cost start goal⟩

/-- **C104**: to route the relations of a module with `T` tables and `R` drawn relations takes, with `M = T + R`, at most
`6176 M² (⌊log₂ M⌋ + 8)` comparisons. -/
theorem C104_at_most (m : Module) (hsize : (placeNodes m.intoMir).2.size.height ≤ 1000000000) :
    let M := (definitions m.entries).length + (connections [] m.entries).length
    (cDrawEdgePath (laidOut m.intoMir) .new).steps ≤ 6176 * M ^ 2 * (Nat.log2 M + 8) := by
  intro M
  have hq := HoleHeap.lawful
  have hd := drawable_intoMir m
  obtain ⟨g, es, hg, hdraw, -⟩ := draw_ok hq (scene_laidOut hd hsize) (edgeEnds_laidOut hd)
  obtain ⟨h1, h2, -⟩ := C75_effort hq m hsize _ _ hdraw
  have h := cDrawEdgePath_le (fewPorts_laidOut m) hg.built
  generalize connectNearest (laidOut m.intoMir) g = G at h1 h2 h
  have hR : (laidOut m.intoMir).edges.length = (connections [] m.entries).length := by
    rw [(laidOut_edges m.intoMir).1]
    simpa using congrArg List.length (C17_relations m).1
  have hRM : (laidOut m.intoMir).edges.length ≤ M := by rw [hR]; exact Nat.le_add_left _ _
  have hE : G.edges.length ≤ 64 * M := by omega
  rcases Nat.eq_zero_or_pos M with h0 | h0
  · rw [show (laidOut m.intoMir).edges.length = 0 by omega] at h
    omega
  · have hlog : Nat.log2 (2 * G.edges.length + 1) ≤ Nat.log2 M + 8 := by
      have e : ∀ k n : Nat, n ≠ 0 → Nat.log2 (2 ^ k * n) = Nat.log2 n + k := by
        intro k n hn
        induction k with
        | zero => simp
        | succ k ih =>
          have hp : 0 < 2 ^ k * n := Nat.mul_pos (by positivity) (by omega)
          rw [Nat.pow_succ, Nat.mul_comm (2 ^ k) 2, Nat.mul_assoc, Nat.log2_def, if_pos (by omega), Nat.mul_div_cancel_left _ (by omega), ih]
          omega
      rw [← e 8 M (by omega)]
      exact HoleHeap.log2_mono (by omega) (by omega)
    calc (cDrawEdgePath (laidOut m.intoMir) .new).steps ≤ (laidOut m.intoMir).edges.length * (16 * searchCmps G.edges.length) := h
      _ ≤ M * (16 * ((384 * M + 2) * (Nat.log2 M + 8))) := by
        unfold searchCmps
        exact Nat.mul_le_mul hRM (Nat.mul_le_mul_left _ (Nat.mul_le_mul (by omega) hlog))
      _ = (6144 * M ^ 2 + 32 * M) * (Nat.log2 M + 8) := by ring
      _ ≤ 6176 * M ^ 2 * (Nat.log2 M + 8) := by
        gcongr
        nlinarith [Nat.mul_le_mul_left M h0]

/-- **C104**, in terms of the source: for `n` ≤ 47 000 000 characters at most `687 n² (⌊log₂ n⌋ + 8)` comparisons, so the loops of the
program, whose number of rounds can be cubic (`C100_cubic`), outweigh the heap. -/
theorem C104_source (src : Str) (hn : src.length ≤ 47000000) (m : Module) (hm : Contains src m) :
    (cDrawEdgePath (laidOut m.intoMir) .new).steps ≤ 687 * src.length ^ 2 * (Nat.log2 src.length + 8) := by
  obtain ⟨h1, -, -, -⟩ := C88_sizes src m hm
  have h := C104_at_most m (C88_height src m hm hn)
  simp only at h
  refine h.trans ?_
  have hM : 3 * ((definitions m.entries).length + (connections [] m.entries).length) ≤ src.length := by omega
  generalize (definitions m.entries).length + (connections [] m.entries).length = M at hM
  have e2 : (3 * M) ^ 2 ≤ src.length ^ 2 := Nat.pow_le_pow_left hM 2
  have e1 : (3 * M) ^ 2 = 9 * M ^ 2 := by ring
  rcases Nat.eq_zero_or_pos M with h0 | h0
  · rw [h0]; simp
  · have hl : Nat.log2 M ≤ Nat.log2 src.length := HoleHeap.log2_mono (by omega) (by omega)
    exact Nat.mul_le_mul (by omega) (by omega)

/-! ## Examples -/

/-- Two comparisons to put in the best of five entries, none to put in the first, three to take the best of seven out. -/
example : (HoleHeap.cPush [(3, 1), (5, 2), (4, 3), (9, 4)] (1, 5)).steps = 2 ∧ (HoleHeap.cPush [] (7, 1)).steps = 0 ∧
    (HoleHeap.cPop [(1, 1), (3, 2), (2, 3), (8, 4), (9, 5), (5, 6), (4, 7)]).steps = 3 := by decide

set_option maxRecDepth 1000000 in
/-- Three tables, four columns and a relation: 404 comparisons. -/
example : (cDrawEdgePath (laidOut threeTables.intoMir) .new).steps = 404 ∧ (placeNodes threeTables.intoMir).2.size.height ≤ 1000000000 := by
  decide +kernel

end Seiren
