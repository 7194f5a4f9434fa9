import Verif.Model.Layout
import Verif.Props.RouteGraph
import Verif.Props.Geometry
import Mathlib.Tactic.Linarith
import Mathlib.Data.List.Induction
/-! # `connect_nearest_neighbor_edge_junctions`: which nodes are joined -/

namespace Seiren

open Spec

instance (d : Orientation) (p q : Point) : Decidable (Towards d p q) := by
  cases d <;> simp only [Towards] <;> infer_instance

/-- A line between the nodes, in direction `d` of the first, is allowed by the orientations of both. -/
def Spec.Linked (d : Orientation) (n m : RouteNodeData) : Prop :=
  Towards d n.location m.location ∧ n.isConnectable d = true ∧ m.isConnectable (opposite d) = true

instance (d : Orientation) (n m : RouteNodeData) : Decidable (Linked d n m) := by unfold Linked; infer_instance

/-- In direction `d`, `m` is nearer than `c`. -/
def Spec.Nearer : Orientation → RouteNodeData → RouteNodeData → Prop
  | .up, c, m => c.location.y < m.location.y
  | .down, c, m => c.location.y > m.location.y
  | .left, c, m => c.location.x < m.location.x
  | .right, c, m => c.location.x > m.location.x

instance (d : Orientation) (c m : RouteNodeData) : Decidable (Nearer d c m) := by
  cases d <;> unfold Nearer <;> infer_instance

theorem opposite_opposite (d : Orientation) : opposite (opposite d) = d := by cases d <;> rfl

theorem Spec.Towards.symm {d : Orientation} {p q : Point} (h : Towards d p q) : Towards (opposite d) q p := by
  cases d <;> simp only [Towards, opposite] at h ⊢ <;> exact ⟨h.1.symm, h.2⟩

theorem Spec.Linked.symm {d : Orientation} {n m : RouteNodeData} (h : Linked d n m) : Linked (opposite d) m n :=
  ⟨h.1.symm, h.2.2, by rw [opposite_opposite]; exact h.2.1⟩

theorem Spec.Towards.unique {d d' : Orientation} {p q : Point} (h : Towards d p q) (h' : Towards d' p q) : d = d' := by
  cases d <;> cases d' <;> simp only [Towards] at h h' <;> first | rfl | (exfalso; obtain ⟨h1, h2⟩ := h; obtain ⟨h3, h4⟩ := h'; linarith)

/-- The neighbour found in a direction. -/
def Nearest.get (s : Nearest) : Orientation → Option (RouteNodeId × RouteNodeData)
  | .up => s.up
  | .down => s.down
  | .left => s.left
  | .right => s.right

theorem nearestStep_get (rects : List Rect) (n : RouteNodeData) (acc : Nearest) (b : RouteNodeId × RouteNodeData)
    (d : Orientation) :
    (nearestStep rects n acc b).get d =
      if Linked d n b.2 then
        takeCandidate (acc.get d) (fun c => decide (Nearer d c b.2))
          (!rects.any (·.intersectsLine n.location b.2.location)) b
      else acc.get d := by
  unfold nearestStep
  simp only
  by_cases h1 : b.2.location.x = n.location.x ∧ b.2.location.y < n.location.y
  · rw [if_pos h1]
    have e1 : ¬ Towards .down n.location b.2.location := by simp only [Towards]; intro h; linarith [h.2, h1.2]
    have e2 : ¬ Towards .left n.location b.2.location := by simp only [Towards]; intro h; linarith [h.2, h1.1]
    have e3 : ¬ Towards .right n.location b.2.location := by simp only [Towards]; intro h; linarith [h.2, h1.1]
    have e0 : Towards .up n.location b.2.location := h1
    cases d <;> simp only [Linked, e0, e1, e2, e3, true_and, false_and, if_false, opposite] <;>
      by_cases hc : n.isConnectable .up = true ∧ b.2.isConnectable .down = true <;>
      simp [Nearest.get, hc, Nearer]
  · rw [if_neg h1]
    have f1 : ¬ Towards .up n.location b.2.location := h1
    by_cases h2 : b.2.location.x = n.location.x ∧ b.2.location.y > n.location.y
    · rw [if_pos h2]
      have e2 : ¬ Towards .left n.location b.2.location := by simp only [Towards]; intro h; linarith [h.2, h2.1]
      have e3 : ¬ Towards .right n.location b.2.location := by simp only [Towards]; intro h; linarith [h.2, h2.1]
      have e0 : Towards .down n.location b.2.location := h2
      cases d <;> simp only [Linked, e0, f1, e2, e3, true_and, false_and, if_false, opposite] <;>
        by_cases hc : n.isConnectable .down = true ∧ b.2.isConnectable .up = true <;>
        simp [Nearest.get, hc, Nearer]
    · rw [if_neg h2]
      have f2 : ¬ Towards .down n.location b.2.location := h2
      by_cases h3 : b.2.location.y = n.location.y ∧ b.2.location.x < n.location.x
      · rw [if_pos h3]
        have e3 : ¬ Towards .right n.location b.2.location := by simp only [Towards]; intro h; linarith [h.2, h3.2]
        have e0 : Towards .left n.location b.2.location := h3
        cases d <;> simp only [Linked, e0, f1, f2, e3, true_and, false_and, if_false, opposite] <;>
          by_cases hc : n.isConnectable .left = true ∧ b.2.isConnectable .right = true <;>
          simp [Nearest.get, hc, Nearer]
      · rw [if_neg h3]
        have f3 : ¬ Towards .left n.location b.2.location := h3
        by_cases h4 : b.2.location.y = n.location.y ∧ b.2.location.x > n.location.x
        · rw [if_pos h4]
          have e0 : Towards .right n.location b.2.location := h4
          cases d <;> simp only [Linked, e0, f1, f2, f3, true_and, false_and, if_false, opposite] <;>
            by_cases hc : n.isConnectable .right = true ∧ b.2.isConnectable .left = true <;>
            simp [Nearest.get, hc, Nearer]
        · rw [if_neg h4]
          have f4 : ¬ Towards .right n.location b.2.location := h4
          cases d <;> simp only [Linked, f1, f2, f3, f4, false_and, if_false]

/-- The line between two locations meets no shape. -/
def Spec.Free (rects : List Rect) (p q : Point) : Prop := ∀ r ∈ rects, r.intersectsLine p q = false

theorem free_iff (rects : List Rect) (p q : Point) : (!rects.any (·.intersectsLine p q)) = true ↔ Free rects p q := by
  simp [Free]

theorem not_nearer_trans {d : Orientation} {a b c : RouteNodeData} (h1 : Nearer d a b) (h2 : ¬ Nearer d a c) :
    ¬ Nearer d b c := by
  cases d <;> simp only [Nearer, not_lt, gt_iff_lt] at * <;> linarith

/-- The result of the search for a neighbour in one direction. -/
theorem nearest_spec (rects : List Rect) (n : RouteNodeData) (d : Orientation) (l : List (RouteNodeId × RouteNodeData)) :
    match (l.foldl (nearestStep rects n) {}).get d with
    | none => ∀ b ∈ l, ¬ Linked d n b.2
    | some f => f ∈ l ∧ Linked d n f.2 ∧
        ∀ b ∈ l, Linked d n b.2 → Free rects n.location b.2.location → ¬ Nearer d f.2 b.2 := by
  induction l using List.reverseRecOn with
  | nil => cases d <;> simp [Nearest.get]
  | append_singleton l b ih =>
    rw [List.foldl_append, List.foldl_cons, List.foldl_nil, nearestStep_get]
    have hirr : ∀ m : RouteNodeData, ¬ Nearer d m m := by intro m; cases d <;> simp [Nearer]
    by_cases hl : Linked d n b.2
    · rw [if_pos hl]
      cases hf : (l.foldl (nearestStep rects n) {}).get d with
      | none =>
        rw [hf] at ih
        simp only [takeCandidate]
        refine ⟨by simp, hl, ?_⟩
        intro c hc hcl _
        rw [List.mem_append, List.mem_singleton] at hc
        rcases hc with hc | rfl
        · exact absurd hcl (ih c hc)
        · exact hirr _
      | some f =>
        rw [hf] at ih
        simp only [takeCandidate]
        obtain ⟨h1, h2, h3⟩ := ih
        by_cases hn : Nearer d f.2 b.2 ∧ Free rects n.location b.2.location
        · have : (decide (Nearer d f.2 b.2) && !rects.any (·.intersectsLine n.location b.2.location)) = true := by
            rw [Bool.and_eq_true, free_iff, decide_eq_true_iff]; exact hn
          rw [if_pos this]
          refine ⟨by simp, hl, ?_⟩
          intro c hc hcl hfr
          rw [List.mem_append, List.mem_singleton] at hc
          rcases hc with hc | rfl
          · exact not_nearer_trans hn.1 (h3 c hc hcl hfr)
          · exact hirr _
        · have : ¬ (decide (Nearer d f.2 b.2) && !rects.any (·.intersectsLine n.location b.2.location)) = true := by
            rw [Bool.and_eq_true, free_iff, decide_eq_true_iff]; exact hn
          rw [if_neg this]
          refine ⟨by simp [h1], h2, ?_⟩
          intro c hc hcl hfr
          rw [List.mem_append, List.mem_singleton] at hc
          rcases hc with hc | rfl
          · exact h3 c hc hcl hfr
          · exact fun hh => hn ⟨hh, hfr⟩
    · rw [if_neg hl]
      cases hf : (l.foldl (nearestStep rects n) {}).get d with
      | none =>
        rw [hf] at ih
        intro c hc
        rw [List.mem_append, List.mem_singleton] at hc
        rcases hc with hc | rfl
        · exact ih c hc
        · exact hl
      | some f =>
        rw [hf] at ih
        refine ⟨by simp [ih.1], ih.2.1, ?_⟩
        intro c hc hcl hfr
        rw [List.mem_append, List.mem_singleton] at hc
        rcases hc with hc | rfl
        · exact ih.2.2 c hc hcl hfr
        · exact absurd hcl hl

theorem mem_indexed (g : RouteGraph) (i : Nat) (n : RouteNodeData) : (i, n) ∈ g.indexed ↔ g.nodes[i]? = some n := by
  simp only [RouteGraph.indexed, List.mem_map, Prod.mk.injEq]
  constructor
  · rintro ⟨⟨m, j⟩, h, rfl, rfl⟩
    exact List.mem_zipIdx_iff_getElem?.mp h
  · intro h
    exact ⟨(n, i), List.mem_zipIdx_iff_getElem?.mpr h, rfl, rfl⟩

theorem mem_toEdges (s : Nearest) (a x y : RouteNodeId) :
    (x, y) ∈ s.toEdges a ↔ x = a ∧ ∃ d m, s.get d = some (y, m) := by
  simp only [Nearest.toEdges, List.mem_filterMap, List.mem_cons, List.not_mem_nil, or_false]
  constructor
  · rintro ⟨o, ho, h⟩
    rw [Option.map_eq_some_iff] at h
    obtain ⟨⟨i, m⟩, h1, h2⟩ := h
    simp only [Prod.mk.injEq] at h2
    obtain ⟨rfl, rfl⟩ := h2
    refine ⟨rfl, ?_⟩
    rcases ho with rfl | rfl | rfl | rfl
    · exact ⟨.left, m, h1⟩
    · exact ⟨.right, m, h1⟩
    · exact ⟨.up, m, h1⟩
    · exact ⟨.down, m, h1⟩
  · rintro ⟨rfl, d, m, h⟩
    refine ⟨s.get d, ?_, by rw [h]; rfl⟩
    cases d <;> simp [Nearest.get]

theorem joined_foldl_addEdge (es : List (RouteNodeId × RouteNodeId)) (g : RouteGraph) (x y : RouteNodeId) :
    Joined (es.foldl (fun g (a, b) => g.addEdge a b) g) x y ↔ Joined g x y ∨ (x, y) ∈ es ∨ (y, x) ∈ es := by
  induction es generalizing g with
  | nil => simp
  | cons e es ih =>
    obtain ⟨a, b⟩ := e
    rw [List.foldl_cons, ih, (C29_add_edge g a b).2.1]
    simp only [List.mem_cons, Prod.mk.injEq]
    tauto

theorem nodes_foldl_addEdge (es : List (RouteNodeId × RouteNodeId)) (g : RouteGraph) :
    (es.foldl (fun g (a, b) => g.addEdge a b) g).nodes = g.nodes ∧
      (es.foldl (fun g (a, b) => g.addEdge a b) g).terminalPorts = g.terminalPorts := by
  induction es generalizing g with
  | nil => exact ⟨rfl, rfl⟩
  | cons e es ih =>
    obtain ⟨a, b⟩ := e
    rw [List.foldl_cons]
    have h := ih (g.addEdge a b)
    rw [h.1, h.2]
    unfold RouteGraph.addEdge
    split <;> exact ⟨rfl, rfl⟩

theorem wellFormed_foldl_addEdge (es : List (RouteNodeId × RouteNodeId)) (g : RouteGraph) (hg : WellFormed g)
    (h : ∀ e ∈ es, e.1 < g.nodes.length ∧ e.2 < g.nodes.length) :
    WellFormed (es.foldl (fun g (a, b) => g.addEdge a b) g) := by
  induction es generalizing g with
  | nil => exact hg
  | cons e es ih =>
    obtain ⟨a, b⟩ := e
    rw [List.foldl_cons]
    have h0 := h (a, b) (by simp)
    have hn : (g.addEdge a b).nodes = g.nodes := by unfold RouteGraph.addEdge; split <;> rfl
    refine ih _ (hg.addEdge h0.1 h0.2) ?_
    intro e he
    rw [hn]
    exact h e (by simp [he])

/-- The edges the search asks for. -/
def Spec.Chosen (rects : List Rect) (g : RouteGraph) (a b : RouteNodeId) : Prop :=
  ∃ n m d, g.nodes[a]? = some n ∧ g.nodes[b]? = some m ∧ (nearestOf rects g n).get d = some (b, m)

theorem mem_edges_connect (rects : List Rect) (g : RouteGraph) (a b : RouteNodeId) :
    (a, b) ∈ (g.indexed.flatMap fun (a, n) => (nearestOf rects g n).toEdges a) ↔ Chosen rects g a b := by
  rw [List.mem_flatMap]
  constructor
  · rintro ⟨⟨i, n⟩, hi, h⟩
    rw [mem_toEdges] at h
    obtain ⟨rfl, d, m, h⟩ := h
    have hs := nearest_spec rects n d g.indexed
    unfold nearestOf at h
    rw [h] at hs
    exact ⟨n, m, d, (mem_indexed g _ _).mp hi, (mem_indexed g _ _).mp hs.1, h⟩
  · rintro ⟨n, m, d, hn, hm, h⟩
    refine ⟨(a, n), (mem_indexed g _ _).mpr hn, ?_⟩
    rw [mem_toEdges]
    exact ⟨rfl, d, m, h⟩

theorem joined_connect (doc : Document) (g : RouteGraph) (a b : RouteNodeId) :
    Joined (connectNearest doc g) a b ↔
      Joined g a b ∨ Chosen (collisionRects doc) g a b ∨ Chosen (collisionRects doc) g b a := by
  unfold connectNearest
  simp only
  rw [joined_foldl_addEdge, mem_edges_connect, mem_edges_connect]

theorem connect_nodes (doc : Document) (g : RouteGraph) :
    (connectNearest doc g).nodes = g.nodes ∧ (connectNearest doc g).terminalPorts = g.terminalPorts :=
  nodes_foldl_addEdge _ g

theorem connect_wellFormed (doc : Document) (g : RouteGraph) (hg : WellFormed g) : WellFormed (connectNearest doc g) := by
  apply wellFormed_foldl_addEdge _ g hg
  rintro ⟨a, b⟩ he
  rw [mem_edges_connect] at he
  obtain ⟨n, m, d, hn, hm, -⟩ := he
  exact ⟨(List.getElem?_eq_some_iff.mp hn).1, (List.getElem?_eq_some_iff.mp hm).1⟩

/-- Chosen neighbours are linked. -/
theorem Spec.Chosen.linked {rects : List Rect} {g : RouteGraph} {a b : RouteNodeId} (h : Chosen rects g a b) :
    ∃ n m d, g.nodes[a]? = some n ∧ g.nodes[b]? = some m ∧ Linked d n m := by
  obtain ⟨n, m, d, hn, hm, h⟩ := h
  have hs := nearest_spec rects n d g.indexed
  unfold nearestOf at h
  rw [h] at hs
  exact ⟨n, m, d, hn, hm, hs.2.1⟩

/-- A node is joined to the nearest node in a direction if the line between them is free. -/
theorem joined_nearest (doc : Document) (g : RouteGraph) (hg : WellFormed g) (a b : RouteNodeId) (n m : RouteNodeData)
    (d : Orientation) (ha : g.nodes[a]? = some n) (hb : g.nodes[b]? = some m) (hl : Linked d n m)
    (hfree : Free (collisionRects doc) n.location m.location)
    (hnear : ∀ c ∈ g.nodes, Linked d n c → ¬ Nearer d m c) : Joined (connectNearest doc g) a b := by
  rw [joined_connect]
  right; left
  have hs := nearest_spec (collisionRects doc) n d g.indexed
  cases hf : (g.indexed.foldl (nearestStep (collisionRects doc) n) {}).get d with
  | none =>
    rw [hf] at hs
    exact absurd hl (hs (b, m) ((mem_indexed g _ _).mpr hb))
  | some f =>
    rw [hf] at hs
    obtain ⟨i, f⟩ := f
    obtain ⟨h1, h2, h3⟩ := hs
    have hi := (mem_indexed g _ _).mp h1
    have h4 := h3 (b, m) ((mem_indexed g _ _).mpr hb) hl hfree
    have h5 := hnear f (List.mem_of_getElem? hi) h2
    have hloc : f.location = m.location := by
      have t1 := h2.1
      have t2 := hl.1
      obtain ⟨⟨fx, fy⟩, fo⟩ := f
      obtain ⟨⟨mx, my⟩, mo⟩ := m
      simp only [Point.mk.injEq]
      cases d <;> simp only [Nearer, Towards, not_lt, gt_iff_lt] at h4 h5 t1 t2 <;> constructor <;> linarith [t1.1, t2.1]
    have hib : i = b := by
      have e1 : (g.nodes.map (·.location))[i]? = some m.location := by simp [hi, hloc]
      have e2 : (g.nodes.map (·.location))[b]? = some m.location := by simp [hb]
      have hlt : i < (g.nodes.map (·.location)).length := (List.getElem?_eq_some_iff.mp e1).1
      exact (List.getElem?_inj hlt hg.locations).mp (e1.trans e2.symm)
    subst hib
    exact ⟨n, f, d, ha, hi, hf⟩

end Seiren
