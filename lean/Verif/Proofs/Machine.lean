import Verif.Model.Machine
import Verif.Proofs.F32Routing
/-! # Path costs fit into 32 bits -/

namespace Seiren
open Spec

section
variable (w : Nat → Nat)

theorem astarRelaxW_eq (q : Queue) {c1 c2 : RouteNodeId → RouteNodeId → Nat} (node s : Nat) (l : List RouteNodeId)
    (h : ∀ b ∈ l, c1 node b = c2 node b) (hw : ∀ b ∈ l, w (s + c2 node b) = s + c2 node b) (st : AstarState) :
    astarRelaxW w q c1 node s l st = astarRelax q c2 node s l st := by
  induction l generalizing st with
  | nil => rfl
  | cons b l ih =>
    have ih := ih (fun b' hb' => h b' (by simp [hb'])) (fun b' hb' => hw b' (by simp [hb']))
    have hb := hw b (by simp)
    rw [astarRelaxW, astarRelax, h b (by simp), hb]
    simp only [ih, Nat.add_zero, hb]
    rfl

/-- As long as a walk of cost at most `B` leads to the goal and edges cost at most `M`, no sum above `B + M` is formed. -/
theorem astarLoopW_eq (g : RouteGraph) (c1 cost : RouteNodeId → RouteNodeId → Nat) (start : RouteNodeId)
    {q : Queue} {QI : List Entry → Prop} (hq : q.Lawful QI) (goal B M : Nat)
    (hc : ∀ a b, Joined g a b → c1 a b = cost a b) (hM : ∀ a b, Joined g a b → cost a b ≤ M)
    (hB : ∃ p c, Walk g cost start p c goal ∧ c ≤ B) (hw : ∀ n ≤ B + M, w n = n) (fuel : Nat) (st : AstarState)
    (hQ : QI st.visitNext) (cur : Nat) (h : AInv g cost start goal cur [] st) :
    astarLoopW w q g c1 goal fuel st = astarLoop q g cost goal fuel st := by
  induction fuel generalizing st cur with
  | zero => rfl
  | succ fuel ih =>
    rw [astarLoopW, astarLoop]
    cases hpop : q.pop st.visitNext with
    | none => rfl
    | some r =>
      obtain ⟨⟨est, node⟩, rest⟩ := r
      have hperm := hq.pop_perm _ _ _ hQ hpop
      have hmin := hq.pop_min _ _ _ hQ hpop
      have hQ' := hq.inv_pop _ _ _ hQ hpop
      have hmem : (est, node) ∈ st.visitNext := hperm.mem_iff.mpr (by simp)
      obtain ⟨s, hsc, hle⟩ := h.queued _ hmem
      simp only at hsc hle
      simp only [hsc]
      by_cases hgoal : node = goal
      · simp only [hgoal, if_true]
      · simp only [hgoal, if_false]
        cases hest : st.estimateScores.lookup node with
        | some old =>
          have hold := h.mono node old hest _ hmem
          simp only at hold
          simp only [hold, decide_true, Bool.not_true, Bool.false_eq_true, if_false]
          exact ih _ hQ' cur (h.skip g cost start hperm hest)
        | none =>
          simp only [if_true]
          have hse : s = est := by
            rcases h.pending node s hsc with hp | hp
            · have := hmin _ hp
              simp only at this
              omega
            · rw [hest] at hp; cases hp
          subst hse
          obtain ⟨h1, hEn, hmax⟩ := h.expand g cost start hperm hmin hsc hest hgoal
          have hsB : s ≤ B := by
            obtain ⟨p, c, hwk, hcB⟩ := hB
            rcases h.walk g cost start hwk with ⟨e, he, -⟩ | ⟨y, hy, hyc⟩
            · rw [h.goalOpen] at he; cases he
            · have := hmin y hy
              simp only at this
              omega
          have hj : ∀ b ∈ g.neighbors node, Joined g node b := fun b hb => (mem_neighbors g node b).mp hb
          rw [astarRelaxW_eq w q node s _ (fun b hb => hc _ _ (hj b hb))
            (fun b hb => hw _ (Nat.add_le_add hsB (hM _ _ (hj b hb))))]
          have hrel := relax_spec g cost start hq goal node s (g.neighbors node) hj _ hQ' hEn h1 hmax
          exact ih _ hrel.1 node hrel.2.1

theorem astarW_eq (g : RouteGraph) (c1 cost : RouteNodeId → RouteNodeId → Nat) (start : RouteNodeId)
    {q : Queue} {QI : List Entry → Prop} (hq : q.Lawful QI) (goal B M : Nat)
    (hc : ∀ a b, Joined g a b → c1 a b = cost a b) (hM : ∀ a b, Joined g a b → cost a b ≤ M)
    (hB : ∃ p c, Walk g cost start p c goal ∧ c ≤ B) (hw : ∀ n ≤ B + M, w n = n) :
    astarW w q g c1 start goal = astar q g cost start goal :=
  astarLoopW_eq w g c1 cost start hq goal B M hc hM hB hw _ _ (hq.inv_push _ _ hq.inv_nil) 0 (AInv.init g cost start hq goal)

/-- Sums below 2^32 are exact. -/
def FitsU32 (w : Nat → Nat) : Prop := ∀ n < 4294967296, w n = n

variable {w}

theorem Scene.cost_le {ns : List Nat} {doc : Document} (h : Scene ns doc) {g : RouteGraph} (hg : SceneGraph doc g)
    {x y : RouteNodeId} (hj : Joined (connectNearest doc g) x y) : edgeCost (connectNearest doc g) x y ≤ 1000001200 := by
  obtain ⟨n, m, d, hn, hm, hl⟩ := hg.joined_linked hj
  have hc := h.edge_cost hg hj (by rw [(connect_nodes doc g).1]; exact hn) (by rw [(connect_nodes doc g).1]; exact hm)
  obtain ⟨k1, n1, -, a1, a2, a3, k2, n2, hk2, a4⟩ := h.node_bounds hg (List.mem_of_getElem? hn)
  obtain ⟨k3, n3, -, b1, b2, b3, k4, n4, hk4, b4⟩ := h.node_bounds hg (List.mem_of_getElem? hm)
  have s1 := h.small k2 n2 hk2
  have s2 := h.small k4 n4 hk4
  have c1 := col_le k1
  have c3 := col_le k3
  have x1 : |m.location.x - n.location.x| ≤ 1150 := abs_le.mpr ⟨by linarith, by linarith⟩
  have x2 : |m.location.y - n.location.y| ≤ 1000000040 := abs_le.mpr ⟨by linarith, by linarith⟩
  have x3 : (segmentCost n.location m.location : Rat) ≤ |m.location.x - n.location.x| + |m.location.y - n.location.y| :=
    Int.floor_le _
  rw [← hc] at x3
  have : ((edgeCost (connectNearest doc g) x y : Nat) : Rat) ≤ 1000001200 := by
    have e : (((edgeCost (connectNearest doc g) x y : Nat) : Int) : Rat) = ((edgeCost (connectNearest doc g) x y : Nat) : Rat) := by
      norm_cast
    rw [e] at x3
    linarith
  exact_mod_cast this

theorem Scene.bestPathM_eq (hw : FitsU32 w) {q : Queue} {QI : List Entry → Prop} (hq : q.Lawful QI) {ns : List Nat} {doc : Document}
    (h : Scene ns doc) {g : RouteGraph} (hg : SceneGraph doc g) (cf : RouteGraph → RouteNodeId → RouteNodeId → Nat)
    (hcf : ∀ a b, Joined (connectNearest doc g) a b → cf (connectNearest doc g) a b = edgeCost (connectNearest doc g) a b)
    (prs : List (TerminalPort × TerminalPort)) (hprs : ∀ pr ∈ prs, pr.1 ∈ portsOfEdges doc ∧ pr.2 ∈ portsOfEdges doc)
    (c : Nat) (path : Option (List RouteNodeId)) :
    bestPathM w cf q (connectNearest doc g) prs c path = bestPath q (connectNearest doc g) prs c path := by
  have hlook : ∀ p ∈ portsOfEdges doc, ∃ i, (connectNearest doc g).getTerminalPort p.id = some i ∧
      g.nodes[i]? = some ⟨p.location, some p.orientation⟩ := by
    intro p hp
    obtain ⟨i, h1, h2⟩ := hg.ports p hp
    refine ⟨i, ?_, h2⟩
    unfold RouteGraph.getTerminalPort at h1 ⊢
    rw [(connect_nodes doc g).2]; exact h1
  induction prs generalizing c path with
  | nil => rfl
  | cons pr prs ih =>
    obtain ⟨src, dst⟩ := pr
    have ih := ih fun pr hpr => hprs pr (by simp [hpr])
    obtain ⟨hp1, hp2⟩ := hprs (src, dst) (by simp)
    obtain ⟨i, h1, h2⟩ := hlook _ hp1
    obtain ⟨j, h3, h4⟩ := hlook _ hp2
    obtain ⟨p, cw, hwk, hcw⟩ := h.ports_reach hg hp1 hp2 h2 h4
    have hcw' : cw ≤ 2000003000 := by exact_mod_cast hcw
    have hs : computeShortestPathM w cf q (connectNearest doc g) i j = computeShortestPath q (connectNearest doc g) i j := by
      unfold computeShortestPathM computeShortestPath
      rw [astarW_eq w (connectNearest doc g) _ (edgeCost (connectNearest doc g)) i hq j 2000003000 1000001200 hcf
        (fun a b hj => h.cost_le hg hj) ⟨p, cw, hwk, hcw'⟩ (fun n hn => hw n (by omega))]
      rfl
    simp only at h1 h3
    simp only [bestPathM, bestPath, h1, h3, hs, ih]
    rfl

theorem Scene.collectPathsM_eq (hw : FitsU32 w) {q : Queue} {QI : List Entry → Prop} (hq : q.Lawful QI) {ns : List Nat}
    {doc : Document} (h : Scene ns doc) {g : RouteGraph} (hg : SceneGraph doc g)
    (cf : RouteGraph → RouteNodeId → RouteNodeId → Nat)
    (hcf : ∀ a b, Joined (connectNearest doc g) a b → cf (connectNearest doc g) a b = edgeCost (connectNearest doc g) a b)
    (es : List EdgeData) (hes : ∀ e ∈ es, e ∈ doc.edges) :
    collectPathsM w cf q doc (connectNearest doc g) es = collectPaths q doc (connectNearest doc g) es := by
  have hf : ∀ e ∈ doc.edges, findShortestEdgesPathM w cf q doc (connectNearest doc g) e =
      findShortestEdgesPath q doc (connectNearest doc g) e := by
    intro e he
    unfold findShortestEdgesPathM findShortestEdgesPath
    cases hs : doc.getNode e.sourceId with
    | none => rfl
    | some s =>
      cases ht : doc.getNode e.targetId with
      | none => rfl
      | some t =>
        simp only
        rw [h.bestPathM_eq hw hq hg cf hcf]
        · rfl
        rintro ⟨a, b⟩ hpr
        simp only [portPairs, List.mem_flatMap, List.mem_map, Prod.mk.injEq] at hpr
        obtain ⟨a', ha', b', hb', rfl, rfl⟩ := hpr
        exact ⟨EdgeEnds.mem_ports he hs ht (Or.inl ha'), EdgeEnds.mem_ports he hs ht (Or.inr hb')⟩
  induction es with
  | nil => rfl
  | cons e es ih =>
    rw [collectPathsM, collectPaths, ih (fun e' he' => hes e' (by simp [he'])), hf e (hes e (by simp))]
    rfl

end

end Seiren
