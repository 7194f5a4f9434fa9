import Verif.Proofs.RouteNodes
import Verif.Proofs.Astar
/-! # Reachability in the route graph, with a bound on the cost -/

namespace Seiren
open Spec

/-- `b` can be reached from `a` at a cost of at most `B`. -/
def Spec.Reaches (g : RouteGraph) (a b : RouteNodeId) (B : Rat) : Prop :=
  ∃ p c, Walk g (edgeCost g) a p c b ∧ (c : Rat) ≤ B

theorem edgeCost_symm (g : RouteGraph) (a b : RouteNodeId) : edgeCost g a b = edgeCost g b a := by
  unfold edgeCost
  cases g.getNode a <;> cases g.getNode b <;> simp [C51_distance_symm]

theorem walk_append {g : RouteGraph} {cost : RouteNodeId → RouteNodeId → Nat} {a b c : RouteNodeId} {p q : List RouteNodeId}
    {x y : Nat} (h1 : Walk g cost a p x b) (h2 : Walk g cost b q y c) : ∃ r, Walk g cost a r (x + y) c := by
  induction h2 with
  | start => exact ⟨p, h1⟩
  | step h hj ih =>
    obtain ⟨r, hr⟩ := ih
    exact ⟨_, by rw [← Nat.add_assoc]; exact Walk.step hr hj⟩

theorem walk_symm {g : RouteGraph} {cost : RouteNodeId → RouteNodeId → Nat} (hc : ∀ a b, cost a b = cost b a)
    {a b : RouteNodeId} {p : List RouteNodeId} {x : Nat} (h : Walk g cost a p x b) : ∃ r, Walk g cost b r x a := by
  induction h with
  | start => exact ⟨_, Walk.start⟩
  | step h hj ih =>
    rename_i p c x y
    obtain ⟨r, hr⟩ := ih
    have h0 : Walk g cost y [y] 0 y := Walk.start
    have h1 := Walk.step h0 hj.symm
    obtain ⟨s, hs⟩ := walk_append h1 hr
    exact ⟨s, by rw [Nat.zero_add, hc, Nat.add_comm] at hs; exact hs⟩

theorem Spec.Reaches.refl (g : RouteGraph) (a : RouteNodeId) : Reaches g a a 0 := ⟨[a], 0, Walk.start, by simp⟩

theorem Spec.Reaches.trans {g : RouteGraph} {a b c : RouteNodeId} {B C : Rat} (h1 : Reaches g a b B) (h2 : Reaches g b c C) :
    Reaches g a c (B + C) := by
  obtain ⟨p, x, hw, hx⟩ := h1
  obtain ⟨q, y, hw2, hy⟩ := h2
  obtain ⟨r, hr⟩ := walk_append hw hw2
  exact ⟨r, _, hr, by push_cast; linarith⟩

theorem Spec.Reaches.symm {g : RouteGraph} {a b : RouteNodeId} {B : Rat} (h : Reaches g a b B) : Reaches g b a B := by
  obtain ⟨p, x, hw, hx⟩ := h
  obtain ⟨r, hr⟩ := walk_symm (edgeCost_symm g) hw
  exact ⟨r, x, hr, hx⟩

theorem Spec.Reaches.mono {g : RouteGraph} {a b : RouteNodeId} {B C : Rat} (h : Reaches g a b B) (hBC : B ≤ C) : Reaches g a b C := by
  obtain ⟨p, x, hw, hx⟩ := h
  exact ⟨p, x, hw, by linarith⟩

theorem distance_le (a b : Point) (D : Rat) (hD : 0 ≤ D) (h : a.distSq b = D ^ 2) : (a.distanceU32 b : Rat) ≤ D := by
  have hpos : 0 ≤ a.distSq b := by rw [h]; positivity
  have hfl : 0 ≤ (a.distSq b).floor := by rw [Rat.le_floor_iff]; simpa using hpos
  have h1 : a.distanceU32 b ≤ Nat.sqrt (a.distSq b).floor.toNat := Nat.min_le_left _ _
  have h2 : Nat.sqrt (a.distSq b).floor.toNat * Nat.sqrt (a.distSq b).floor.toNat ≤ (a.distSq b).floor.toNat :=
    Nat.sqrt_le _
  have h3 : (a.distanceU32 b) * (a.distanceU32 b) ≤ (a.distSq b).floor.toNat :=
    Nat.le_trans (Nat.mul_le_mul h1 h1) h2
  have h4 : ((a.distanceU32 b * a.distanceU32 b : Nat) : Int) ≤ (a.distSq b).floor := by
    rw [← Int.toNat_of_nonneg hfl]; exact Int.ofNat_le.mpr h3
  rw [Rat.le_floor_iff, h] at h4
  push_cast at h4
  by_contra hc
  rw [not_le] at hc
  nlinarith

theorem reach_edge {g : RouteGraph} {a b : RouteNodeId} {n m : RouteNodeData} (ha : g.nodes[a]? = some n)
    (hb : g.nodes[b]? = some m) (hj : Joined g a b) {D : Rat} (hD : 0 ≤ D) (h : n.location.distSq m.location = D ^ 2) :
    Reaches g a b D := by
  have hw := Walk.step (cost := edgeCost g) (Walk.start (g := g) (a := a)) hj
  refine ⟨_, _, hw, ?_⟩
  have : edgeCost g a b = n.location.distanceU32 m.location := by simp [edgeCost, RouteGraph.getNode, ha, hb]
  rw [this, Nat.zero_add]
  exact distance_le _ _ D hD h

/-- The coordinate along the direction, for `up` and `left`. -/
def along : Orientation → Point → Rat
  | .up, p => p.y
  | .down, p => p.y
  | .left, p => p.x
  | .right, p => p.x

/-- The coordinate across the direction. -/
def across : Orientation → Point → Rat
  | .up, p => p.x
  | .down, p => p.x
  | .left, p => p.y
  | .right, p => p.y

theorem countP_lt {α : Type} (l : List α) (p q : α → Bool) (h : ∀ x ∈ l, p x = true → q x = true) (x : α) (hx : x ∈ l)
    (hq : q x = true) (hp : p x = false) : l.countP p < l.countP q := by
  induction l with
  | nil => cases hx
  | cons y l ih =>
    rw [List.countP_cons, List.countP_cons]
    have hle : l.countP p ≤ l.countP q := List.countP_mono_left fun z hz => h z (by simp [hz])
    rw [List.mem_cons] at hx
    rcases hx with rfl | hx
    · simp only [hp, hq, if_true]
      simp
      omega
    · have := ih (fun z hz => h z (by simp [hz])) hx
      have hy := h y (by simp)
      by_cases hpy : p y = true
      · simp only [hpy, hy hpy, if_true]; omega
      · simp only [hpy]
        simp
        omega

/-- All nodes on a line on which every node is a junction and nothing is in the way are connected along the line. -/
theorem line_reach (doc : Document) (g : RouteGraph) (hg : WellFormed g) (d : Orientation) (hd : d = .up ∨ d = .left) (X : Rat)
    (hnone : ∀ c ∈ g.nodes, across d c.location = X → c.orientation = none)
    (hfree : ∀ p q : Point, across d p = X → across d q = X → Free (collisionRects doc) p q)
    (a b : RouteNodeId) (n m : RouteNodeData) (ha : g.nodes[a]? = some n) (hb : g.nodes[b]? = some m)
    (han : across d n.location = X) (hbm : across d m.location = X) (hle : along d m.location ≤ along d n.location) :
    Reaches (connectNearest doc g) a b (along d n.location - along d m.location) := by
  generalize hN : g.nodes.countP (fun c => decide (across d c.location = X) && decide (along d c.location < along d n.location)) = N
  induction N using Nat.strongRecOn generalizing a n with
  | ind N ih =>
    rcases eq_or_lt_of_le hle with he | hlt
    · -- the same node
      have hloc : n.location = m.location := by
        rcases hd with rfl | rfl <;> simp only [along, across] at he han hbm <;>
          (obtain ⟨⟨nx, ny⟩, no⟩ := n; obtain ⟨⟨mx, my⟩, mo⟩ := m; simp only [Point.mk.injEq]; simp only at he han hbm; constructor <;> linarith)
      have hab : a = b := by
        have e1 : (g.nodes.map (·.location))[a]? = some m.location := by simp [ha, hloc]
        have e2 : (g.nodes.map (·.location))[b]? = some m.location := by simp [hb]
        have hlt : a < (g.nodes.map (·.location)).length := (List.getElem?_eq_some_iff.mp e1).1
        exact (List.getElem?_inj hlt hg.locations).mp (e1.trans e2.symm)
      subst hab
      rw [he, sub_self]
      exact Reaches.refl _ _
    · have hlink : ∀ c : RouteNodeData, c.orientation = none →
          (Linked d n c ↔ across d c.location = across d n.location ∧ along d c.location < along d n.location) := by
        intro c hc
        have hn0 := hnone n (List.mem_of_getElem? ha) han
        rcases hd with rfl | rfl <;> simp [Linked, Towards, across, along, RouteNodeData.isConnectable, hc, hn0]
      have hm0 := hnone m (List.mem_of_getElem? hb) hbm
      have hlm : Linked d n m := (hlink m hm0).mpr ⟨by rw [hbm, han], hlt⟩
      have hs := nearest_spec (collisionRects doc) n d g.indexed
      cases hf : (g.indexed.foldl (nearestStep (collisionRects doc) n) {}).get d with
      | none =>
        rw [hf] at hs
        exact absurd hlm (hs (b, m) ((mem_indexed g _ _).mpr hb))
      | some f =>
        rw [hf] at hs
        obtain ⟨i, f⟩ := f
        obtain ⟨h1, h2, h3⟩ := hs
        simp only at h2 h3
        have hi := (mem_indexed g _ _).mp h1
        have hnf : ¬ Nearer d f m := h3 (b, m) ((mem_indexed g _ _).mpr hb) hlm (hfree _ _ han hbm)
        have hfx : across d f.location = X ∧ along d f.location < along d n.location := by
          have := h2.1
          rcases hd with rfl | rfl <;> simp only [Towards, across, along] at this han ⊢ <;> exact ⟨by rw [this.1, han], this.2⟩
        have hfm : along d m.location ≤ along d f.location := by
          rcases hd with rfl | rfl <;> simp only [Nearer, not_lt] at hnf <;> exact hnf
        have hj : Joined (connectNearest doc g) a i := by
          rw [joined_connect]
          exact Or.inr (Or.inl ⟨n, f, d, ha, hi, hf⟩)
        have hcount : g.nodes.countP (fun c => decide (across d c.location = X) && decide (along d c.location < along d f.location)) < N := by
          rw [← hN]
          apply countP_lt _ _ _ _ f (List.mem_of_getElem? hi)
          · simp [hfx.1, hfx.2]
          · simp
          · intro c _ hc
            simp only [Bool.and_eq_true, decide_eq_true_iff] at hc ⊢
            exact ⟨hc.1, lt_trans hc.2 hfx.2⟩
        have hrec := ih _ hcount i f hi hfx.1 hfm rfl
        have hedge : Reaches (connectNearest doc g) a i (along d n.location - along d f.location) := by
          apply reach_edge (by rw [(connect_nodes doc g).1]; exact ha) (by rw [(connect_nodes doc g).1]; exact hi) hj
          · linarith [hfx.2]
          · have h4 := hfx.1
            unfold Point.distSq
            rcases hd with rfl | rfl <;> simp only [across, along] at h4 han ⊢ <;> rw [h4, han] <;> ring
        have := hedge.trans hrec
        refine this.mono ?_
        linarith

end Seiren
