import Verif.Proofs.Astar
import Verif.Proofs.BinaryHeap
/-! # C30, C31: the shortest-path search and its priority queue -/

namespace Seiren

open Spec

/-- **C30.** On every graph whose edges join existing nodes, with every (non-negative) cost function and every lawful
priority queue, whatever its order among entries of equal cost, the search ends without panic.  It answers `none`
exactly if no walk leads from start to goal; otherwise the nodes it returns form a walk from start to goal without
repeated nodes, of exactly the returned cost, and no walk from start to goal costs less. -/
theorem C30_search_correct {q : Queue} {QI : List Entry → Prop} (hq : q.Lawful QI) (g : RouteGraph)
    (hg : ∀ e ∈ g.edges, e.1 < g.nodes.length ∧ e.2 < g.nodes.length) (cost : RouteNodeId → RouteNodeId → Nat)
    (start goal : RouteNodeId) (hs : start < g.nodes.length) :
    (astar q g cost start goal = .ok none ∧ ¬ ∃ p c, Walk g cost start p c goal) ∨
    ∃ c p, astar q g cost start goal = .ok (some (c, p)) ∧ Walk g cost start p c goal ∧ p.Nodup ∧
      ∀ p' c', Walk g cost start p' c' goal → c ≤ c' := by
  obtain ⟨r, hr, hok⟩ := astar_spec hq g hg cost start goal hs
  cases r with
  | none =>
    left
    exact ⟨hr, fun ⟨p, c, hw⟩ => hok p c hw⟩
  | some r =>
    right
    exact ⟨r.1, r.2, hr, hok.1, hok.2.1, hok.2.2⟩

/-! ## C31 -/

/-- A use of the queue: push an entry or pop one. -/
inductive Spec.HeapOp where
  | push (e : Entry)
  | pop

/-- Run operations on the queue, collecting the results of the pops. -/
def Spec.runHeap (q : Queue) : List Spec.HeapOp → List Entry → List (Option Entry) × List Entry
  | [], h => ([], h)
  | .push e :: ops, h => Spec.runHeap q ops (q.push h e)
  | .pop :: ops, h =>
    match q.pop h with
    | none => let r := Spec.runHeap q ops h; (none :: r.1, r.2)
    | some (e, h') => let r := Spec.runHeap q ops h'; (some e :: r.1, r.2)

/-- What a priority queue may answer, as a relation on the multiset `bag` of the entries pushed and not yet popped: a pop
answers nothing exactly if the bag is empty, and otherwise some entry of the bag of least cost, which leaves the bag. -/
inductive Spec.PriorityAnswers : List Spec.HeapOp → List Entry → List (Option Entry) → Prop where
  | done {bag} : PriorityAnswers [] bag []
  | push {e ops bag as} (h : PriorityAnswers ops (e :: bag) as) : PriorityAnswers (.push e :: ops) bag as
  | popNone {ops as} (h : PriorityAnswers ops [] as) : PriorityAnswers (.pop :: ops) [] (none :: as)
  | popSome {e ops bag bag' as} (hp : bag.Perm (e :: bag')) (hmin : ∀ x ∈ bag, e.1 ≤ x.1)
      (h : PriorityAnswers ops bag' as) : PriorityAnswers (.pop :: ops) bag (some e :: as)

theorem priorityAnswers_of_lawful {q : Queue} {QI : List Entry → Prop} (hq : q.Lawful QI) (ops : List HeapOp)
    (h bag : List Entry) (hQ : QI h) (hp : h.Perm bag) : PriorityAnswers ops bag (runHeap q ops h).1 := by
  induction ops generalizing h bag with
  | nil => exact .done
  | cons op ops ih =>
    cases op with
    | push e =>
      exact .push (ih (q.push h e) (e :: bag) (hq.inv_push _ _ hQ) ((hq.push_perm _ _ hQ).trans (hp.cons e)))
    | pop =>
      cases hpop : q.pop h with
      | none =>
        have hnil : h = [] := by
          by_contra hne
          obtain ⟨e, h', he⟩ := hq.pop_some _ hQ hne
          rw [hpop] at he; cases he
        subst hnil
        have hb : bag = [] := hp.symm.eq_nil
        subst hb
        simp only [runHeap, hpop]
        exact .popNone (ih [] [] hQ (List.Perm.refl _))
      | some r =>
        obtain ⟨e, h'⟩ := r
        simp only [runHeap, hpop]
        refine .popSome (hp.symm.trans (hq.pop_perm _ _ _ hQ hpop)) ?_ (ih h' h' (hq.inv_pop _ _ _ hQ hpop) (List.Perm.refl _))
        intro x hx
        exact hq.pop_min _ _ _ hQ hpop x (hp.mem_iff.mpr hx)

/-- **C31.** Any sequence of pushes and pops on std's binary heap, starting empty, is answered as by a priority queue. -/
theorem C31_heap_is_priority_queue (ops : List HeapOp) : PriorityAnswers ops [] (runHeap BinHeap.queue ops []).1 :=
  priorityAnswers_of_lawful BinHeap.lawful ops [] [] BinHeap.lawful.inv_nil (List.Perm.refl _)

/-- **C31**, for the search: std's heap is one of the queues C30 speaks of. -/
theorem C31_search_with_heap (g : RouteGraph)
    (hg : ∀ e ∈ g.edges, e.1 < g.nodes.length ∧ e.2 < g.nodes.length) (cost : RouteNodeId → RouteNodeId → Nat)
    (start goal : RouteNodeId) (hs : start < g.nodes.length) :
    (astar BinHeap.queue g cost start goal = .ok none ∧ ¬ ∃ p c, Walk g cost start p c goal) ∨
    ∃ c p, astar BinHeap.queue g cost start goal = .ok (some (c, p)) ∧ Walk g cost start p c goal ∧ p.Nodup ∧
      ∀ p' c', Walk g cost start p' c' goal → c ≤ c' :=
  C30_search_correct BinHeap.lawful g hg cost start goal hs

/-! ## Cases -/

/-- A square with a diagonal and a detached node. -/
def square : RouteGraph :=
  ⟨[⟨⟨0, 0⟩, none⟩, ⟨⟨3, 0⟩, none⟩, ⟨⟨3, 4⟩, none⟩, ⟨⟨0, 4⟩, none⟩, ⟨⟨9, 9⟩, none⟩], [(0, 1), (1, 2), (2, 3), (3, 0), (0, 2)], []⟩

example : ∀ e ∈ square.edges, e.1 < square.nodes.length ∧ e.2 < square.nodes.length := by decide
example : astar BinHeap.queue square (edgeCost square) 1 3 = .ok (some (7, [1, 2, 3])) ∨
    astar BinHeap.queue square (edgeCost square) 1 3 = .ok (some (7, [1, 0, 3])) := by decide +kernel
example : astar BinHeap.queue square (edgeCost square) 0 4 = .ok none := by decide +kernel
example : (runHeap BinHeap.queue [.push (5, 0), .push (3, 1), .push (4, 2), .pop, .push (1, 3), .pop, .pop, .pop, .pop] []).1 =
    [some (3, 1), some (1, 3), some (4, 2), some (5, 0), none] := by decide +kernel

end Seiren
