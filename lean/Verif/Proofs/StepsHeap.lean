import Mathlib.Tactic.Ring
import Verif.Model.StepsHeap
import Verif.Proofs.HoleHeap
import Verif.Proofs.StepsBound
/-! # The counts of `Verif/Model/StepsHeap.lean` -/

namespace Seiren
open Steps Spec StepBound

namespace HoleHeap

/-! ## The results -/

theorem cSiftUp_val (fuel : Nat) (h : Hole) : (cSiftUp fuel h).val = siftUp fuel h := by
  induction fuel generalizing h with
  | zero => rfl
  | succ fuel ih =>
    unfold cSiftUp siftUp
    simp only
    split
    · rw [round_val]; split
      · rfl
      · exact ih _
    · rfl

theorem cSiftToBottom_val (len fuel : Nat) (h : Hole) : (cSiftToBottom len fuel h).val = siftToBottom len fuel h := by
  induction fuel generalizing h with
  | zero => rfl
  | succ fuel ih =>
    unfold cSiftToBottom siftToBottom
    simp only
    split
    · rw [round_val]; exact ih _
    · split <;> rfl

theorem cPush_val (h : List Entry) (e : Entry) : (cPush h e).val = push h e := by
  rw [cPush, andThen_val, done_val, cSiftUp_val]; rfl

theorem cPop_val (h : List Entry) : (cPop h).val = pop h := by
  unfold cPop pop
  cases h.getLast? with
  | none => rfl
  | some item =>
    simp only
    cases h.dropLast with
    | nil => rfl
    | cons root tail => simp only [andThen_val, done_val, cSiftUp_val, cSiftToBottom_val]

/-! ## The number of comparisons of one operation -/

/-- On the way up, the position (counted from one) is halved with each comparison. -/
theorem cSiftUp_le (fuel : Nat) (h : Hole) : (cSiftUp fuel h).steps ≤ Nat.log2 (h.pos + 1) := by
  induction fuel generalizing h with
  | zero => exact Nat.zero_le _
  | succ fuel ih =>
    unfold cSiftUp
    simp only
    split
    · next hp =>
      have hl : Nat.log2 (h.pos + 1) = Nat.log2 ((h.pos - 1) / 2 + 1) + 1 := by
        rw [Nat.log2_def (h.pos + 1), if_pos (by omega)]
        congr 2
        omega
      rw [round_steps, hl]
      split
      · exact Nat.succ_le_succ (Nat.zero_le _)
      · exact Nat.succ_le_succ (ih (h.moveTo ((h.pos - 1) / 2)))
    · exact Nat.zero_le _

theorem log2_mono {a b : Nat} (ha : a ≠ 0) (h : a ≤ b) : Nat.log2 a ≤ Nat.log2 b := by
  rw [Nat.le_log2 (by omega)]
  exact (Nat.log2_self_le ha).trans h

/-- On the way down, the position (counted from one) is at least doubled with each comparison, and it stays in the array. -/
theorem cSiftToBottom_le (len fuel : Nat) (h : Hole) (hp : h.pos < len) :
    (cSiftToBottom len fuel h).val.pos < len ∧
      (cSiftToBottom len fuel h).steps + Nat.log2 (h.pos + 1) ≤ Nat.log2 ((cSiftToBottom len fuel h).val.pos + 1) := by
  induction fuel generalizing h with
  | zero => exact ⟨hp, by simp [cSiftToBottom]⟩
  | succ fuel ih =>
    unfold cSiftToBottom
    simp only
    split
    · next hc =>
      obtain ⟨i, hi, hr⟩ : ∃ i, i ≤ 1 ∧ i = (if (h.get (2 * h.pos + 1)).1 ≥ (h.get (2 * h.pos + 1 + 1)).1 then 1 else 0) := by
        split <;> exact ⟨_, by omega, rfl⟩
      rw [← hr]
      have h1 := ih (h.moveTo (2 * h.pos + 1 + i)) (show 2 * h.pos + 1 + i < len by omega)
      refine ⟨h1.1, ?_⟩
      have h2 : Nat.log2 (h.pos + 1) + 1 ≤ Nat.log2 ((h.moveTo (2 * h.pos + 1 + i)).pos + 1) := by
        show _ ≤ Nat.log2 (2 * h.pos + 1 + i + 1)
        rw [Nat.log2_def (2 * h.pos + 1 + i + 1), if_pos (by omega)]
        exact Nat.succ_le_succ (log2_mono (by omega) (by omega))
      rw [round_steps, round_val]
      omega
    · split
      · next hc =>
        refine ⟨show 2 * h.pos + 1 < len by omega, ?_⟩
        rw [done_steps, Nat.zero_add]
        exact log2_mono (by omega) (show h.pos + 1 ≤ 2 * h.pos + 1 + 1 by omega)
      · exact ⟨hp, by rw [done_steps, Nat.zero_add]; exact Nat.le_refl _⟩

theorem cPush_le (h : List Entry) (e : Entry) : (cPush h e).steps ≤ Nat.log2 (h.length + 1) := by
  rw [cPush, andThen_steps, done_steps, Nat.add_zero]
  exact cSiftUp_le _ _

theorem cPop_le (h : List Entry) : (cPop h).steps ≤ 2 * Nat.log2 (h.length - 1) := by
  unfold cPop
  cases h.getLast? with
  | none => exact Nat.zero_le _
  | some item =>
    simp only
    cases hd : h.dropLast with
    | nil => exact Nat.zero_le _
    | cons root tail =>
      have hl : (item :: tail).length = h.length - 1 := by rw [← List.length_dropLast, hd]; rfl
      obtain ⟨h1, h2⟩ := cSiftToBottom_le (item :: tail).length (item :: tail).length (Hole.new (item :: tail) 0) (by simp [Hole.new])
      simp only [andThen_steps, done_steps, Nat.add_zero]
      generalize (cSiftToBottom (item :: tail).length (item :: tail).length (Hole.new (item :: tail) 0)) = r at h1 h2 ⊢
      have h3 := cSiftUp_le r.val.pos (Hole.new r.val.fill r.val.pos)
      have h4 : Nat.log2 (r.val.pos + 1) ≤ Nat.log2 (h.length - 1) := log2_mono (by omega) (by omega)
      change _ ≤ Nat.log2 (r.val.pos + 1) at h3
      omega

/-- The comparisons of the way down are as many as the levels of the heap, or one less. -/
theorem cSiftToBottom_ge (len fuel : Nat) (h : Hole) (hp : h.pos < len) (hf : len ≤ h.pos + fuel) :
    Nat.log2 len ≤ (cSiftToBottom len fuel h).steps + Nat.log2 (h.pos + 1) + 1 := by
  induction fuel generalizing h with
  | zero => omega
  | succ fuel ih =>
    unfold cSiftToBottom
    simp only
    split
    · next hc =>
      obtain ⟨i, hi, hr⟩ : ∃ i, i ≤ 1 ∧ i = (if (h.get (2 * h.pos + 1)).1 ≥ (h.get (2 * h.pos + 1 + 1)).1 then 1 else 0) := by
        split <;> exact ⟨_, by omega, rfl⟩
      rw [← hr]
      have h1 := ih (h.moveTo (2 * h.pos + 1 + i)) (show 2 * h.pos + 1 + i < len by omega) (show len ≤ 2 * h.pos + 1 + i + fuel by omega)
      have h2 : Nat.log2 ((h.moveTo (2 * h.pos + 1 + i)).pos + 1) = Nat.log2 (h.pos + 1) + 1 := by
        show Nat.log2 (2 * h.pos + 1 + i + 1) = _
        rw [Nat.log2_def (2 * h.pos + 1 + i + 1), if_pos (by omega)]
        congr 2
        omega
      rw [round_steps]
      omega
    · next hc =>
      have h3 : Nat.log2 len ≤ Nat.log2 (2 * (h.pos + 1)) := log2_mono (by omega) (by omega)
      have h4 : Nat.log2 (2 * (h.pos + 1)) = Nat.log2 (h.pos + 1) + 1 := by
        rw [Nat.log2_def (2 * (h.pos + 1)), if_pos (by omega)]
        congr 2
        omega
      omega

theorem cPop_ge (h : List Entry) (hl : 2 ≤ h.length) : Nat.log2 (h.length - 1) ≤ (cPop h).steps + 1 := by
  unfold cPop
  cases hi : h.getLast? with
  | none => rw [List.getLast?_eq_none_iff] at hi; rw [hi] at hl; simp at hl
  | some item =>
    simp only
    cases hd : h.dropLast with
    | nil => have := congrArg List.length hd; rw [List.length_dropLast, List.length_nil] at this; omega
    | cons root tail =>
      have hl : (item :: tail).length = h.length - 1 := by rw [← List.length_dropLast, hd]; rfl
      have h1 := cSiftToBottom_ge (item :: tail).length (item :: tail).length (Hole.new (item :: tail) 0) (by simp [Hole.new]) (by simp [Hole.new])
      have h0 : Nat.log2 ((Hole.new (item :: tail) 0).pos + 1) = 0 := by show Nat.log2 (0 + 1) = 0; decide
      simp only [andThen_steps]
      rw [h0] at h1
      rw [← hl]
      omega

/-- An entry of a smaller score than all others goes all the way up. -/
theorem cSiftUp_exact (fuel : Nat) (h : Hole) (hf : h.pos ≤ fuel) (hmin : ∀ i < h.pos, h.elt.1 < (h.get i).1) :
    (cSiftUp fuel h).steps = Nat.log2 (h.pos + 1) := by
  induction fuel generalizing h with
  | zero =>
    rw [show h.pos = 0 by omega]; rfl
  | succ fuel ih =>
    unfold cSiftUp
    simp only
    split
    · next hp =>
      have hl : Nat.log2 (h.pos + 1) = Nat.log2 ((h.pos - 1) / 2 + 1) + 1 := by
        rw [Nat.log2_def (h.pos + 1), if_pos (by omega)]
        congr 2
        omega
      have hlt := hmin ((h.pos - 1) / 2) (by omega)
      rw [round_steps, hl, if_neg (by omega), ih (h.moveTo ((h.pos - 1) / 2)) (show (h.pos - 1) / 2 ≤ fuel by omega) ?_]
      · rfl
      · intro i hi
        change i < (h.pos - 1) / 2 at hi
        have he : (h.moveTo ((h.pos - 1) / 2)).get i = h.get i := by
          show (h.data.set h.pos _).getD i (0, 0) = h.data.getD i (0, 0)
          rw [List.getD_eq_getElem?_getD, List.getD_eq_getElem?_getD, List.getElem?_set_ne (by omega)]
        rw [he]
        exact hmin i (by omega)
    · next hp => rw [show h.pos = 0 by omega]; rfl

theorem cPush_exact (h : List Entry) (e : Entry) (hmin : ∀ x ∈ h, e.1 < x.1) : (cPush h e).steps = Nat.log2 (h.length + 1) := by
  rw [cPush, andThen_steps, done_steps, Nat.add_zero]
  refine cSiftUp_exact h.length _ (Nat.le_refl _) fun i hi => ?_
  change i < h.length at hi
  show ((h ++ [e]).getD h.length (0, 0)).1 < ((h ++ [e]).getD i (0, 0)).1
  rw [List.getD_eq_getElem?_getD, List.getD_eq_getElem?_getD, List.getElem?_append_left hi, List.getElem?_append_right (Nat.le_refl _), Nat.sub_self,
    List.getElem?_eq_getElem hi]
  exact hmin _ (List.getElem_mem hi)

theorem lawful : queue.Lawful BinHeap.IsHeap := by rw [queue_eq]; exact BinHeap.lawful

end HoleHeap

/-! ## The results of the search -/

theorem cAstarRelax_val (cost : RouteNodeId → RouteNodeId → Nat) (node nodeScore : Nat) (ns : List RouteNodeId) (st : AstarState) :
    (cAstarRelax cost node nodeScore ns st).val = astarRelax HoleHeap.queue cost node nodeScore ns st := by
  induction ns generalizing st with
  | nil => rfl
  | cons n ns ih =>
    rw [cAstarRelax, astarRelax]
    cases st.scores.lookup n with
    | none => simp only [if_true, andThen_val, HoleHeap.cPush_val]; exact ih _
    | some old =>
      simp only
      split
      · simp only [andThen_val, HoleHeap.cPush_val]; exact ih _
      · exact ih _

theorem cAstarLoop_val (g : RouteGraph) (cost : RouteNodeId → RouteNodeId → Nat) (goal fuel : Nat) (st : AstarState) :
    (cAstarLoop g cost goal fuel st).val = astarLoop HoleHeap.queue g cost goal fuel st := by
  induction fuel generalizing st with
  | zero => rfl
  | succ fuel ih =>
    unfold cAstarLoop astarLoop
    rw [andThen_val, HoleHeap.cPop_val, show HoleHeap.queue.pop st.visitNext = HoleHeap.pop st.visitNext from rfl]
    cases HoleHeap.pop st.visitNext with
    | none => rfl
    | some r =>
      obtain ⟨⟨est, node⟩, rest⟩ := r
      simp only
      cases st.scores.lookup node with
      | none => rfl
      | some s =>
        simp only
        split
        · rfl
        · cases hl : st.estimateScores.lookup node with
          | none => simp only [if_true]; rw [andThen_val, cAstarRelax_val, ih]
          | some old =>
            simp only
            split
            · rw [andThen_val, cAstarRelax_val, ih]
            · exact ih _

theorem cAstar_val (g : RouteGraph) (cost : RouteNodeId → RouteNodeId → Nat) (start goal : RouteNodeId) :
    (cAstar g cost start goal).val = astar HoleHeap.queue g cost start goal := by
  rw [cAstar, andThen_val, HoleHeap.cPush_val, cAstarLoop_val]; rfl

theorem cComputeShortestPath_val (g : RouteGraph) (start goal : RouteNodeId) :
    (cComputeShortestPath g start goal).val = computeShortestPath HoleHeap.queue g start goal := by
  rw [cComputeShortestPath, andThenE_val, cAstar_val, computeShortestPath]
  cases astar HoleHeap.queue g (edgeCost g) start goal with
  | error e => rfl
  | ok r => cases r <;> rfl

theorem cBestPath_val (g : RouteGraph) (ps : List (TerminalPort × TerminalPort)) (cost : Nat) (path : Option (List RouteNodeId)) :
    (cBestPath g ps cost path).val = bestPath HoleHeap.queue g ps cost path := by
  induction ps generalizing cost path with
  | nil => rfl
  | cons p ps ih =>
    obtain ⟨src, dst⟩ := p
    unfold cBestPath bestPath
    cases g.getTerminalPort src.id with
    | none => exact ih _ _
    | some s =>
      simp only
      cases g.getTerminalPort dst.id with
      | none => exact ih _ _
      | some t =>
        simp only [andThenE_val, cComputeShortestPath_val]
        cases computeShortestPath HoleHeap.queue g s t with
        | error e => rfl
        | ok r =>
          simp only
          split <;> exact ih _ _

theorem cFindShortestEdgesPath_val (doc : Document) (g : RouteGraph) (e : EdgeData) :
    (cFindShortestEdgesPath doc g e).val = findShortestEdgesPath HoleHeap.queue doc g e := by
  unfold cFindShortestEdgesPath findShortestEdgesPath
  cases doc.getNode e.sourceId with
  | none => rfl
  | some s =>
    cases doc.getNode e.targetId with
    | none => rfl
    | some t =>
      simp only [andThenE_val, cBestPath_val]
      cases bestPath HoleHeap.queue g (portPairs s t) ROUTE_COST_MAX none with
      | error e => rfl
      | ok r => cases r with
        | none => rfl
        | some path =>
          simp only [andThenE_val, done_val]
          cases pathLocations g path <;> rfl

theorem cCollectPaths_val (doc : Document) (g : RouteGraph) (es : List EdgeData) :
    (cCollectPaths doc g es).val = collectPaths HoleHeap.queue doc g es := by
  induction es with
  | nil => rfl
  | cons e es ih =>
    unfold cCollectPaths collectPaths
    rw [andThenE_val, cFindShortestEdgesPath_val]
    cases findShortestEdgesPath HoleHeap.queue doc g e with
    | error e => rfl
    | ok r =>
      simp only [andThenE_val, ih]
      cases collectPaths HoleHeap.queue doc g es <;> rfl

theorem cDrawEdgePath_val (doc : Document) (g : RouteGraph) : (cDrawEdgePath doc g).val = drawEdgePath HoleHeap.queue doc g := by
  unfold cDrawEdgePath drawEdgePath
  rw [andThenE_val, done_val]
  cases buildRouteGraph doc g with
  | error e => rfl
  | ok g =>
    simp only [andThenE_val, cCollectPaths_val]
    cases collectPaths HoleHeap.queue doc g doc.edges with
    | error e => rfl
    | ok paths =>
      simp only [done_val]
      cases assignPaths doc.edges paths <;> rfl

/-! ## The number of comparisons of a search -/

namespace StepBound

/-- Relaxing the edges of a node makes at most one `push` for each, on heaps of less than `B` entries. -/
theorem cAstarRelax_le (cost : RouteNodeId → RouteNodeId → Nat) (node nodeScore B : Nat) (ns : List RouteNodeId) (st : AstarState)
    (hQ : BinHeap.IsHeap st.visitNext) (hB : st.visitNext.length + ns.length ≤ B) :
    (cAstarRelax cost node nodeScore ns st).steps ≤ ns.length * Nat.log2 B := by
  induction ns generalizing st with
  | nil => exact Nat.zero_le _
  | cons n ns ih =>
    rw [List.length_cons] at hB ⊢
    rw [cAstarRelax, Nat.succ_mul]
    have hno := ih st hQ (by omega)
    have hp := HoleHeap.cPush_le st.visitNext (nodeScore + cost node n, n)
    have hp2 : Nat.log2 (st.visitNext.length + 1) ≤ Nat.log2 B := HoleHeap.log2_mono (by omega) (by omega)
    have hlen := (HoleHeap.lawful.push_perm st.visitNext (nodeScore + cost node n, n) hQ).length_eq
    have hinv := HoleHeap.lawful.inv_push st.visitNext (nodeScore + cost node n, n) hQ
    have hyes := ih { st with scores := (n, nodeScore + cost node n) :: st.scores, cameFrom := (n, node) :: st.cameFrom,
                              visitNext := HoleHeap.push st.visitNext (nodeScore + cost node n, n) } hinv (by
      rw [List.length_cons] at hlen
      change (HoleHeap.push _ _).length = _ at hlen
      simp only [hlen]; omega)
    cases st.scores.lookup n with
    | none => simp only [if_true, andThen_steps, HoleHeap.cPush_val]; omega
    | some old =>
      simp only
      split
      · rw [andThen_steps, HoleHeap.cPush_val]; omega
      · omega

/-- A search makes at most two comparisons on each level of the heap for each entry it takes out and one for each it puts in. -/
theorem cAstarLoop_le (g : RouteGraph) (cost : RouteNodeId → RouteNodeId → Nat) (B : Nat)
    (start goal fuel : Nat) (st : AstarState) (hQ : BinHeap.IsHeap st.visitNext) (cur : Nat) (h : AInv g cost start goal cur [] st)
    (hB : st.visitNext.length + budget st.estimateScores g.edges ≤ B) :
    (cAstarLoop g cost goal fuel st).steps ≤ (2 * st.visitNext.length + 3 * budget st.estimateScores g.edges) * Nat.log2 B := by
  induction fuel generalizing st cur with
  | zero => exact Nat.zero_le _
  | succ fuel ih =>
    unfold cAstarLoop
    rw [andThen_steps, HoleHeap.cPop_val]
    have hpople := HoleHeap.cPop_le st.visitNext
    cases hpop : HoleHeap.pop st.visitNext with
    | none =>
      have he : st.visitNext = [] := by
        by_contra hne
        obtain ⟨e, h', hs⟩ := HoleHeap.lawful.pop_some _ hQ hne
        rw [show HoleHeap.queue.pop st.visitNext = HoleHeap.pop st.visitNext from rfl, hpop] at hs
        cases hs
      simp only [done_steps]
      rw [he] at hpople ⊢
      exact (Nat.le_trans hpople (by simp))
    | some r =>
      obtain ⟨⟨est, node⟩, rest⟩ := r
      have hpop' : HoleHeap.queue.pop st.visitNext = some ((est, node), rest) := hpop
      have hperm := HoleHeap.lawful.pop_perm _ _ _ hQ hpop'
      have hmin := HoleHeap.lawful.pop_min _ _ _ hQ hpop'
      have hQ' := HoleHeap.lawful.inv_pop _ _ _ hQ hpop'
      have hmem : (est, node) ∈ st.visitNext := hperm.mem_iff.mpr (by simp)
      obtain ⟨s, hsc, hle⟩ := h.queued _ hmem
      simp only at hsc hle
      have hopen : st.estimateScores.lookup node = none → s = est := by
        intro hn
        rcases h.pending node s hsc with hp | hp
        · have := hmin _ hp
          simp only at this
          omega
        · rw [hn] at hp; cases hp
      have hlen := hperm.length_eq
      rw [List.length_cons] at hlen
      have hlog : Nat.log2 (st.visitNext.length - 1) ≤ Nat.log2 B := by
        by_cases h0 : st.visitNext.length - 1 = 0
        · rw [h0]; exact Nat.zero_le _
        · exact HoleHeap.log2_mono h0 (by omega)
      have e1 : (2 * st.visitNext.length + 3 * budget st.estimateScores g.edges) * Nat.log2 B =
          2 * Nat.log2 B + (2 * rest.length + 3 * budget st.estimateScores g.edges) * Nat.log2 B := by
        rw [hlen]; ring
      rw [e1]
      simp only [hsc]
      by_cases hgoal : node = goal
      · simp only [hgoal, if_true, done_steps]
        omega
      · simp only [hgoal, if_false]
        cases hest : st.estimateScores.lookup node with
        | some old =>
          have hold := h.mono node old hest _ hmem
          simp only at hold
          simp only [hold, decide_true, Bool.not_true, Bool.false_eq_true, if_false]
          have := ih _ hQ' cur (h.skip g cost start hperm hest) (by simp only; omega)
          simp only at this
          omega
        | none =>
          have hse := hopen hest
          subst hse
          have hnk : node ∉ keys st.estimateScores := (lookup_none_iff _ _).mp hest
          obtain ⟨h1, hEn, hmax⟩ := h.expand g cost start hperm hmin hsc hest hgoal
          have hrel := relax_spec g cost start HoleHeap.lawful goal node s (g.neighbors node)
            (fun w hw => (mem_neighbors g node w).mp hw) ⟨rest, st.scores, (node, s) :: st.estimateScores, st.cameFrom⟩ hQ' hEn h1 hmax
          have hb := neighbors_budget g st.estimateScores node s hnk
          have hl := hrel.2.2.2
          have hc := cAstarRelax_le cost node s B (g.neighbors node) ⟨rest, st.scores, (node, s) :: st.estimateScores, st.cameFrom⟩ hQ'
            (by simp only; omega)
          have h2 := ih _ hrel.1 node hrel.2.1 (by rw [hrel.2.2.1]; simp only at hl ⊢; omega)
          rw [hrel.2.2.1] at h2
          simp only [if_true, andThen_steps, cAstarRelax_val] at hl h2 hc ⊢
          have e2 : (2 * (rest.length + (g.neighbors node).length) + 3 * budget ((node, s) :: st.estimateScores) g.edges) * Nat.log2 B +
              (g.neighbors node).length * Nat.log2 B ≤ (2 * rest.length + 3 * budget st.estimateScores g.edges) * Nat.log2 B := by
            rw [← Nat.add_mul]
            exact Nat.mul_le_mul_right _ (by omega)
          have e3 := h2.trans (Nat.mul_le_mul_right (Nat.log2 B)
            (show 2 * (astarRelax HoleHeap.queue cost node s (g.neighbors node) ⟨rest, st.scores, (node, s) :: st.estimateScores, st.cameFrom⟩).visitNext.length +
              3 * budget ((node, s) :: st.estimateScores) g.edges ≤
              2 * (rest.length + (g.neighbors node).length) + 3 * budget ((node, s) :: st.estimateScores) g.edges by omega))
          omega

/-- The most comparisons of a search in a graph with `E` edges. -/
def searchCmps (E : Nat) : Nat := (6 * E + 2) * Nat.log2 (2 * E + 1)

theorem cAstar_le (g : RouteGraph) (cost : RouteNodeId → RouteNodeId → Nat) (start goal : RouteNodeId) :
    (cAstar g cost start goal).steps ≤ searchCmps g.edges.length := by
  have hq := HoleHeap.lawful
  have hperm := (hq.push_perm [] (0, start) hq.inv_nil).length_eq
  have hb := budget_le [] g.edges
  change (HoleHeap.push [] (0, start)).length = 1 at hperm
  have h := cAstarLoop_le g cost (2 * g.edges.length + 1) start goal (2 * g.edges.length + 2) _ (hq.inv_push _ (0, start) hq.inv_nil) 0
    (AInv.init g cost start hq goal) (by
      change (HoleHeap.push [] (0, start)).length + _ ≤ _
      rw [hperm]; simp only; omega)
  change _ ≤ (2 * (HoleHeap.push [] (0, start)).length + _) * _ at h
  rw [hperm] at h
  rw [cAstar, andThen_steps, HoleHeap.cPush_val, searchCmps]
  have h0 : (HoleHeap.cPush [] (0, start)).steps = 0 := rfl
  rw [h0, Nat.zero_add]
  exact h.trans (Nat.mul_le_mul_right _ (by simp only; omega))

theorem cComputeShortestPath_le (g : RouteGraph) (start goal : RouteNodeId) : (cComputeShortestPath g start goal).steps ≤ searchCmps g.edges.length := by
  have h := cAstar_le g (edgeCost g) start goal
  rw [cComputeShortestPath, andThenE_steps]
  cases (cAstar g (edgeCost g) start goal).val with
  | error e => simpa using h
  | ok r => cases r <;> simpa using h

theorem cBestPath_le (g : RouteGraph) (ps : List (TerminalPort × TerminalPort)) (cost : Nat) (path : Option (List RouteNodeId)) :
    (cBestPath g ps cost path).steps ≤ ps.length * searchCmps g.edges.length := by
  induction ps generalizing cost path with
  | nil => exact Nat.zero_le _
  | cons p ps ih =>
    obtain ⟨src, dst⟩ := p
    unfold cBestPath
    rw [List.length_cons, Nat.succ_mul]
    cases g.getTerminalPort src.id with
    | none => have := ih cost path; simp only; omega
    | some s =>
      simp only
      cases g.getTerminalPort dst.id with
      | none => have := ih cost path; simp only; omega
      | some t =>
        simp only [andThenE_steps]
        have hc := cComputeShortestPath_le g s t
        cases (cComputeShortestPath g s t).val with
        | error e => simp only; omega
        | ok r =>
          simp only
          split
          · have := ih r.1 (some r.2); omega
          · have := ih cost path; omega

theorem cFindShortestEdgesPath_le {doc : Document} (hf : FewPorts doc) (g : RouteGraph) {e : EdgeData} (he : e ∈ doc.edges) :
    (cFindShortestEdgesPath doc g e).steps ≤ 16 * searchCmps g.edges.length := by
  unfold cFindShortestEdgesPath
  cases hs : doc.getNode e.sourceId with
  | none => exact Nat.zero_le _
  | some s =>
    cases ht : doc.getNode e.targetId with
    | none => exact Nat.zero_le _
    | some t =>
      obtain ⟨h1, h2⟩ := hf e he s t hs ht
      simp only [andThenE_steps]
      have hb := cBestPath_le g (portPairs s t) ROUTE_COST_MAX none
      have hpairs : (portPairs s t).length ≤ 16 := by
        refine (flatMap_length_le _ 4 _ fun p _ => ?_).trans (by omega)
        rw [List.length_map]; exact h2
      have hb' := hb.trans (Nat.mul_le_mul_right (searchCmps g.edges.length) hpairs)
      cases (cBestPath g (portPairs s t) ROUTE_COST_MAX none).val with
      | error e => simpa using hb'
      | ok r =>
        cases r with
        | none => simpa using hb'
        | some path =>
          simp only [andThenE_steps, done_steps, done_val]
          cases pathLocations g path <;> simpa using hb'

theorem cCollectPaths_le {doc : Document} (hf : FewPorts doc) (g : RouteGraph) (es : List EdgeData) (hes : ∀ e ∈ es, e ∈ doc.edges) :
    (cCollectPaths doc g es).steps ≤ es.length * (16 * searchCmps g.edges.length) := by
  induction es with
  | nil => exact Nat.zero_le _
  | cons e es ih =>
    have h1 := cFindShortestEdgesPath_le hf g (hes e (by simp))
    have h2 := ih fun e he => hes e (by simp [he])
    unfold cCollectPaths
    rw [andThenE_steps, List.length_cons, Nat.succ_mul]
    cases (cFindShortestEdgesPath doc g e).val with
    | error e => simp only; omega
    | ok r =>
      simp only [andThenE_steps]
      cases (cCollectPaths doc g es).val <;> simp only [done_steps] <;> omega

theorem cDrawEdgePath_le {doc : Document} (hf : FewPorts doc) {G : RouteGraph} (hb : buildRouteGraph doc .new = .ok G) :
    (cDrawEdgePath doc .new).steps ≤ doc.edges.length * (16 * searchCmps G.edges.length) := by
  have h := cCollectPaths_le hf G doc.edges fun _ h => h
  rw [cDrawEdgePath, andThenE_steps, done_val, hb]
  simp only [done_steps, andThenE_steps, Nat.zero_add]
  cases (cCollectPaths doc G doc.edges).val with
  | error e => simpa using h
  | ok paths =>
    simp only [done_val]
    cases assignPaths doc.edges paths <;> simpa using h

end StepBound

end Seiren
