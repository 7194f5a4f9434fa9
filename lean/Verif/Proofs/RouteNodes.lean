import Verif.Proofs.Nearest
/-! # The nodes of the route graph -/

namespace Seiren
open Spec

theorem addNodeAt_compatible (g : RouteGraph) (loc : Point) (o : Option Orientation)
    (h : ∀ n ∈ g.nodes, n.location = loc → n.orientation = o) : ∃ g' i, g.addNodeAt loc o = .ok (g', i) := by
  unfold RouteGraph.addNodeAt
  split
  · rename_i node i hf
    obtain ⟨h1, h2⟩ := find_zipIdx_some hf
    have := h node (List.mem_of_getElem? h1) h2
    rw [if_neg (by simpa using this)]
    exact ⟨_, _, rfl⟩
  · exact ⟨_, _, rfl⟩

theorem addNodeAt_mem {g g' : RouteGraph} {loc : Point} {o : Option Orientation} {i : RouteNodeId}
    (h : g.addNodeAt loc o = .ok (g', i)) (n : RouteNodeData) : n ∈ g'.nodes ↔ n ∈ g.nodes ∨ n = ⟨loc, o⟩ := by
  obtain ⟨-, -, h3, hc⟩ := addNodeAt_ok h
  rcases hc with rfl | ⟨hn, -, -⟩
  · constructor
    · exact Or.inl
    · rintro (h | rfl)
      · exact h
      · exact List.mem_of_getElem? h3
  · rw [hn]; simp

theorem addNodeAt_getElem {g g' : RouteGraph} {loc : Point} {o : Option Orientation} {i : RouteNodeId}
    (h : g.addNodeAt loc o = .ok (g', i)) (j : Nat) (n : RouteNodeData) (hj : g.nodes[j]? = some n) :
    g'.nodes[j]? = some n := by
  obtain ⟨-, -, -, hc⟩ := addNodeAt_ok h
  rcases hc with rfl | ⟨hn, -, -⟩
  · exact hj
  · rw [hn, List.getElem?_append_left (List.getElem?_eq_some_iff.mp hj).1, hj]

theorem addJunctions_ok (js : List Point) (g : RouteGraph) (hg : WellFormed g)
    (h : ∀ j ∈ js, ∀ n ∈ g.nodes, n.location = j → n.orientation = none) :
    ∃ g', addJunctions g js = .ok g' ∧ WellFormed g' ∧ g'.edges = g.edges ∧ g'.terminalPorts = g.terminalPorts ∧
      (∀ n, n ∈ g'.nodes ↔ n ∈ g.nodes ∨ ∃ j ∈ js, n = ⟨j, none⟩) ∧
      ∀ (i : Nat) (n : RouteNodeData), g.nodes[i]? = some n → g'.nodes[i]? = some n := by
  induction js generalizing g with
  | nil => exact ⟨g, rfl, hg, rfl, rfl, by simp, fun _ _ h => h⟩
  | cons j js ih =>
    obtain ⟨g1, i, h1⟩ := addNodeAt_compatible g j none (h j (by simp))
    have hmem := addNodeAt_mem h1
    obtain ⟨g', h2, h3, h4, h5, h6, h7⟩ := ih g1 (hg.addNodeAt h1) (by
      intro k hk n hn hnk
      rw [hmem] at hn
      rcases hn with hn | rfl
      · exact h k (by simp [hk]) n hn hnk
      · rfl)
    refine ⟨g', ?_, h3, by rw [h4, (addNodeAt_ok h1).1], by rw [h5, (addNodeAt_ok h1).2.1], ?_,
      fun i n hi => h7 i n (addNodeAt_getElem h1 i n hi)⟩
    · simp only [addJunctions, RouteGraph.addNode, h1]
      exact h2
    · intro n
      rw [h6, hmem]
      simp only [List.mem_cons, exists_eq_or_imp]
      tauto

theorem addTerminalPorts_ok (ps : List TerminalPort) (g : RouteGraph) (hg : WellFormed g)
    (h : ∀ p ∈ ps, ∀ n ∈ g.nodes, n.location = p.location → n.orientation = some p.orientation)
    (hp : ∀ p ∈ ps, ∀ q ∈ ps, p.location = q.location → p.orientation = q.orientation)
    (hid : ∀ p ∈ ps, ∀ q ∈ ps, p.id = q.id → p = q) :
    ∃ g', addTerminalPorts g ps = .ok g' ∧ WellFormed g' ∧ g'.edges = g.edges ∧
      (∀ n, n ∈ g'.nodes ↔ n ∈ g.nodes ∨ ∃ p ∈ ps, n = ⟨p.location, some p.orientation⟩) ∧
      (∀ (i : Nat) (n : RouteNodeData), g.nodes[i]? = some n → g'.nodes[i]? = some n) ∧
      (∀ p ∈ ps, ∃ i, g'.getTerminalPort p.id = some i ∧ g'.nodes[i]? = some ⟨p.location, some p.orientation⟩) ∧
      (∀ id, (∀ p ∈ ps, p.id ≠ id) → g'.getTerminalPort id = g.getTerminalPort id) := by
  induction ps generalizing g with
  | nil => exact ⟨g, rfl, hg, rfl, by simp, fun _ _ h => h, by simp, fun _ _ => rfl⟩
  | cons p ps ih =>
    obtain ⟨g1, i, h1⟩ := addNodeAt_compatible g p.location (some p.orientation) (h p (by simp))
    have hmem := addNodeAt_mem h1
    have hw := hg.addNodeAt h1
    obtain ⟨g', h2, h3, h4, h6, h7, h8, h9⟩ := ih ⟨g1.nodes, g1.edges, (p.id, i) :: g1.terminalPorts⟩
      ⟨hw.locations, hw.ends, hw.simple⟩ (by
      intro q hq n hn hnk
      simp only at hn
      rw [hmem] at hn
      rcases hn with hn | rfl
      · exact h q (by simp [hq]) n hn hnk
      · simp only at hnk ⊢
        rw [hp p (by simp) q (by simp [hq]) hnk]) (fun q hq r hr => hp q (by simp [hq]) r (by simp [hr]))
        (fun q hq r hr => hid q (by simp [hq]) r (by simp [hr]))
    have hlk : ∀ id, List.lookup id ((p.id, i) :: g1.terminalPorts) = if id = p.id then some i else g.getTerminalPort id := by
      intro id
      rw [List.lookup_cons]
      by_cases hh : id = p.id
      · subst hh; simp
      · have : (id == p.id) = false := beq_eq_false_iff_ne.mpr hh
        rw [this, if_neg hh, (addNodeAt_ok h1).2.1]
        rfl
    refine ⟨g', ?_, h3, by rw [h4]; exact (addNodeAt_ok h1).1, ?_, fun i n hi => h7 i n (addNodeAt_getElem h1 i n hi), ?_, ?_⟩
    · simp only [addTerminalPorts, RouteGraph.addTerminalPort, h1]
      exact h2
    · intro n
      rw [h6, hmem]
      simp only [List.mem_cons, exists_eq_or_imp]
      tauto
    · intro q hq
      rw [List.mem_cons] at hq
      by_cases hq' : q ∈ ps
      · exact h8 q hq'
      · rcases hq with rfl | hq
        · refine ⟨i, ?_, h7 i _ (addNodeAt_ok h1).2.2.1⟩
          rw [h9 q.id]
          · rw [RouteGraph.getTerminalPort, hlk]; simp
          · intro r hr hh
            exact hq' (hid r (by simp [hr]) q (by simp) hh ▸ hr)
        · exact absurd hq hq'
    · intro id hne
      rw [h9 id (fun q hq => hne q (by simp [hq])), RouteGraph.getTerminalPort, hlk, if_neg]
      exact fun hh => hne p (by simp) hh.symm

end Seiren
