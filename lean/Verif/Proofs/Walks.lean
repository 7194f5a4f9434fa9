import Verif.Proofs.Drawn
import Mathlib.Algebra.Order.Ring.Abs
/-! # Walks and the points on them -/

namespace Seiren
open Spec

/-- Consecutive nodes of `w` are joined. -/
def Spec.Route (g : RouteGraph) (w : List RouteNodeId) : Prop :=
  ∀ (k : Nat) (x y : RouteNodeId), w[k]? = some x → w[k + 1]? = some y → Joined g x y

/-- The length of a horizontal or vertical segment, rounded down. -/
def Spec.segmentCost (a b : Point) : Int := (|b.x - a.x| + |b.y - a.y|).floor

/-- The cost of a path of horizontal and vertical segments: the sum of their lengths, each rounded down. -/
def Spec.routeCost : List Point → Int
  | a :: b :: ps => segmentCost a b + routeCost (b :: ps)
  | _ => 0

theorem walk_route {g : RouteGraph} {cost : RouteNodeId → RouteNodeId → Nat} {a b : RouteNodeId} {w : List RouteNodeId} {c : Nat}
    (h : Walk g cost a w c b) : w.head? = some a ∧ w.getLast? = some b ∧ Route g w := by
  induction h with
  | start =>
    refine ⟨rfl, rfl, ?_⟩
    intro k x y hx hy
    simp at hy
  | step hw hj ih =>
    rename_i p c x y
    obtain ⟨h1, h2, h3⟩ := ih
    have hne : p ≠ [] := by intro h; rw [h] at h1; cases h1
    refine ⟨by rw [List.head?_append, h1]; rfl, by simp, ?_⟩
    intro k u v hu hv
    by_cases hk : k + 1 < p.length
    · rw [List.getElem?_append_left (by omega)] at hu
      rw [List.getElem?_append_left hk] at hv
      exact h3 k u v hu hv
    · have hlen : k + 1 < (p ++ [y]).length := (List.getElem?_eq_some_iff.mp hv).1
      rw [List.length_append, List.length_singleton] at hlen
      have hk' : k + 1 = p.length := by omega
      rw [hk', List.getElem?_append_right (by omega)] at hv
      simp only [Nat.sub_self, List.getElem?_cons_zero, Option.some.injEq] at hv
      subst hv
      rw [List.getElem?_append_left (by omega)] at hu
      have : u = x := by
        rw [List.getLast?_eq_getElem?, show p.length - 1 = k by omega, hu] at h2
        exact Option.some.inj h2
      rw [this]; exact hj

theorem route_walk {g : RouteGraph} (cost : RouteNodeId → RouteNodeId → Nat) {a b : RouteNodeId} (w : List RouteNodeId)
    (h1 : w.head? = some a) (h2 : w.getLast? = some b) (h3 : Route g w) : ∃ c, Walk g cost a w c b := by
  induction w using List.reverseRecOn generalizing b with
  | nil => cases h1
  | append_singleton l y ih =>
    simp only [List.getLast?_append, List.getLast?_singleton, Option.some_or, Option.some.injEq] at h2
    subst h2
    by_cases hl : l = []
    · subst hl
      simp only [List.nil_append, List.head?_cons, Option.some.injEq] at h1
      subst h1
      exact ⟨0, Walk.start⟩
    · obtain ⟨x, hx⟩ : ∃ x, l.getLast? = some x := by
        cases h : l.getLast? with
        | none => exact absurd (List.getLast?_eq_none_iff.mp h) hl
        | some x => exact ⟨x, rfl⟩
      have hh : l.head? = some a := by
        cases l with
        | nil => exact absurd rfl hl
        | cons z l => simpa using h1
      obtain ⟨c, hc⟩ := ih hh hx (by
        intro k u v hu hv
        have e1 := (List.getElem?_eq_some_iff.mp hu).1
        have e2 := (List.getElem?_eq_some_iff.mp hv).1
        exact h3 k u v (by rw [List.getElem?_append_left e1]; exact hu) (by rw [List.getElem?_append_left e2]; exact hv))
      refine ⟨_, Walk.step hc (h3 (l.length - 1) x y ?_ ?_)⟩
      · have : 0 < l.length := List.length_pos_iff.mpr hl
        rw [List.getElem?_append_left (by omega), ← List.getLast?_eq_getElem?]; exact hx
      · have : 0 < l.length := List.length_pos_iff.mpr hl
        rw [show l.length - 1 + 1 = l.length by omega, List.getElem?_append_right (by omega)]; simp

theorem Spec.Locations.length {g : RouteGraph} {w : List RouteNodeId} {ps : List Point} (h : Locations g w ps) : w.length = ps.length :=
  List.Forall₂.length_eq h

theorem Spec.Locations.get {g : RouteGraph} {w : List RouteNodeId} {ps : List Point} (h : Locations g w ps) (k : Nat) (p : Point)
    (hp : ps[k]? = some p) : ∃ x n, w[k]? = some x ∧ g.nodes[x]? = some n ∧ n.location = p := by
  induction h generalizing k with
  | nil => cases hp
  | cons h1 h2 ih =>
    rename_i x q w ps
    cases k with
    | zero =>
      simp only [List.getElem?_cons_zero, Option.some.injEq] at hp
      subst hp
      obtain ⟨n, h3, h4⟩ := h1
      exact ⟨x, n, rfl, h3, h4⟩
    | succ k => simpa using ih k (by simpa using hp)

theorem Spec.Locations.mem {g : RouteGraph} {w : List RouteNodeId} {ps : List Point} (h : Locations g w ps) (p : Point)
    (hp : p ∈ ps) : ∃ n ∈ g.nodes, n.location = p := by
  obtain ⟨k, hk⟩ := List.getElem?_of_mem hp
  obtain ⟨x, n, -, h1, h2⟩ := h.get k p hk
  exact ⟨n, List.mem_of_getElem? h1, h2⟩

theorem routeCost_snoc (ps : List Point) (a b : Point) (h : ps.getLast? = some a) :
    routeCost (ps ++ [b]) = routeCost ps + segmentCost a b := by
  induction ps with
  | nil => cases h
  | cons p ps ih =>
    cases ps with
    | nil =>
      simp only [List.getLast?_singleton, Option.some.injEq] at h
      subst h
      simp [routeCost]
    | cons q ps =>
      have := ih (by simpa using h)
      simp only [List.cons_append, routeCost] at this ⊢
      rw [this]; ring

theorem walk_cost {g : RouteGraph} {a b : RouteNodeId} {w : List RouteNodeId} {c : Nat} {ps : List Point}
    (hcost : ∀ x y n m, Joined g x y → g.nodes[x]? = some n → g.nodes[y]? = some m →
      (edgeCost g x y : Int) = segmentCost n.location m.location)
    (h : Walk g (edgeCost g) a w c b) (hl : Locations g w ps) : (c : Int) = routeCost ps := by
  induction h generalizing ps with
  | start =>
    cases hl with
    | cons h1 h2 => cases h2; rfl
  | step hw hj ih =>
    rename_i p c x y
    unfold Locations at hl
    rw [List.forall₂_iff_zip] at hl
    obtain ⟨hlen, hz⟩ := hl
    rw [List.length_append, List.length_singleton] at hlen
    -- split the points
    obtain ⟨ps', q, rfl⟩ : ∃ ps' q, ps = ps' ++ [q] := by
      have hne : ps ≠ [] := by intro h; rw [h] at hlen; simp at hlen
      exact ⟨ps.dropLast, ps.getLast hne, (List.dropLast_append_getLast hne).symm⟩
    rw [List.length_append, List.length_singleton] at hlen
    have hlen' : p.length = ps'.length := by omega
    have hzip : (p ++ [y]).zip (ps' ++ [q]) = p.zip ps' ++ [(y, q)] := by
      rw [List.zip_append hlen']; rfl
    rw [hzip] at hz
    have hloc : Locations g p ps' := by
      unfold Locations
      rw [List.forall₂_iff_zip]
      exact ⟨hlen', fun h => hz (List.mem_append.mpr (Or.inl h))⟩
    obtain ⟨m, hm, hmq⟩ := hz (a := y) (b := q) (by simp)
    obtain ⟨-, h2, -⟩ := walk_route hw
    have hlast : ∃ r, ps'.getLast? = some r := by
      have hne : p ≠ [] := by intro h; rw [h] at h2; cases h2
      have hpos : 0 < p.length := List.length_pos_iff.mpr hne
      have : ps' ≠ [] := by intro h; rw [h, List.length_nil] at hlen'; omega
      exact ⟨_, List.getLast?_eq_some_getLast this⟩
    obtain ⟨r, hr⟩ := hlast
    have hr' := hr
    rw [List.getLast?_eq_getElem?] at hr'
    obtain ⟨x', n, hx', hn, hnr⟩ := hloc.get _ _ hr'
    have : x' = x := by
      rw [List.getLast?_eq_getElem?] at h2
      rw [← hlen', h2] at hx'
      exact (Option.some.inj hx').symm
    subst this
    rw [routeCost_snoc ps' r q hr, ← ih hloc]
    push_cast
    rw [hcost x' y n m hj hn hm, hnr, hmq]

/-- The model's cost of a horizontal or vertical segment is its length, rounded down. -/
theorem distance_axis (a b : Point) (h : a.x = b.x ∨ a.y = b.y) (hb : |b.x - a.x| + |b.y - a.y| ≤ 4294967295) :
    (a.distanceU32 b : Int) = segmentCost a b := by
  have hD : a.distSq b = (|b.x - a.x| + |b.y - a.y|) ^ 2 := by
    unfold Point.distSq
    rcases h with h | h
    · rw [h]; simp only [sub_self, abs_zero, zero_add, sq_abs]; ring
    · rw [h]; simp only [sub_self, abs_zero, add_zero, sq_abs]; ring
  unfold segmentCost
  have hD0 : 0 ≤ |b.x - a.x| + |b.y - a.y| := by positivity
  generalize |b.x - a.x| + |b.y - a.y| = D at hD hD0 hb
  have hf0 : 0 ≤ D.floor := by rw [Rat.le_floor_iff]; simpa using hD0
  obtain ⟨k, hk⟩ := Int.eq_ofNat_of_zero_le hf0
  have hle : ((D.floor : Int) : Rat) ≤ D := by rw [← Rat.le_floor_iff]
  have hlt : D < ((D.floor + 1 : Int) : Rat) := by
    by_contra hcon
    rw [not_lt, ← Rat.le_floor_iff] at hcon
    omega
  rw [hk] at hle hlt ⊢
  have hle' : (k : Rat) ≤ D := by exact_mod_cast hle
  have hlt' : D < (k : Rat) + 1 := by exact_mod_cast hlt
  have hsq : (a.distSq b).floor.toNat.sqrt = k := by
    symm
    rw [Nat.eq_sqrt]
    have h0 : 0 ≤ (a.distSq b).floor := by rw [Rat.le_floor_iff, hD]; simp; positivity
    constructor
    · have : ((k * k : Nat) : Int) ≤ (a.distSq b).floor := by
        rw [Rat.le_floor_iff, hD]; push_cast
        have : (0 : Rat) ≤ (k : Rat) := Nat.cast_nonneg _
        nlinarith
      omega
    · have : (a.distSq b).floor < (((k + 1) * (k + 1) : Nat) : Int) := by
        by_contra hcon
        rw [not_lt, Rat.le_floor_iff, hD] at hcon
        push_cast at hcon
        nlinarith
      omega
  unfold Point.distanceU32
  rw [hsq]
  have : k ≤ 4294967295 := by
    have : (k : Rat) ≤ 4294967295 := le_trans hle' hb
    exact_mod_cast this
  rw [Nat.min_eq_left this]

/-- Joined nodes of a scene's graph are straight neighbours, in a direction both allow. -/
theorem SceneGraph.joined_linked {doc : Document} {g : RouteGraph} (hg : SceneGraph doc g) {a b : RouteNodeId}
    (h : Joined (connectNearest doc g) a b) :
    ∃ n m d, g.nodes[a]? = some n ∧ g.nodes[b]? = some m ∧ Linked d n m := by
  rw [joined_connect] at h
  rcases h with h | h | h
  · exfalso
    unfold Joined at h
    rw [hg.edges] at h
    simp at h
  · exact h.linked
  · obtain ⟨n, m, d, hn, hm, hl⟩ := h.linked
    exact ⟨m, n, _, hm, hn, hl.symm⟩

theorem Spec.Towards.axis {d : Orientation} {p q : Point} (h : Towards d p q) : p.x = q.x ∨ p.y = q.y := by
  cases d <;> simp only [Towards] at h
  · exact Or.inl h.1.symm
  · exact Or.inl h.1.symm
  · exact Or.inr h.1.symm
  · exact Or.inr h.1.symm

/-- Where the nodes of a scene's graph are. -/
theorem Scene.node_bounds {ns : List Nat} {doc : Document} (h : Scene ns doc) {g : RouteGraph} (hg : SceneGraph doc g)
    {c : RouteNodeData} (hc : c ∈ g.nodes) :
    ∃ k n, ns[k]? = some n ∧ 10 ≤ c.location.x ∧ c.location.x ≤ 390 + 380 * col k ∧ 10 ≤ c.location.y ∧
      ∃ k' n', ns[k']? = some n' ∧ c.location.y ≤ bot ns k' n' + 40 := by
  rcases hg.between hc with ⟨-, hj⟩ | ⟨p, hp, hloc, -⟩
  · obtain ⟨h1, k', n', hk', h2⟩ := h.junction_y hj
    rcases h.junction_shape hj with ⟨k, n, hk, hx⟩ | ⟨k, n, hk, hx, -⟩
    · have := col_le k
      refine ⟨k, n, hk, ?_, ?_, h1, k', n', hk', h2⟩ <;> rcases hx with hx | hx <;> rw [hx] <;> linarith
    · have := col_le k
      exact ⟨k, n, hk, by rw [hx]; linarith, by rw [hx]; linarith, h1, k', n', hk', h2⟩
  · obtain ⟨k, n, hk, hpa⟩ := h.ports p hp
    obtain ⟨h1, h2, h3, h4⟩ := h.port_on_table hk hpa
    have := col_le k
    have := rowTop_ge ns (k / 3)
    rw [hloc]
    exact ⟨k, n, hk, by linarith, by linarith, by linarith, k, n, hk, by linarith⟩

theorem Scene.edge_cost {ns : List Nat} {doc : Document} (h : Scene ns doc) {g : RouteGraph} (hg : SceneGraph doc g)
    {x y : RouteNodeId} {n m : RouteNodeData} (hj : Joined (connectNearest doc g) x y)
    (hn : (connectNearest doc g).nodes[x]? = some n) (hm : (connectNearest doc g).nodes[y]? = some m) :
    (edgeCost (connectNearest doc g) x y : Int) = segmentCost n.location m.location := by
  obtain ⟨n', m', d, hn', hm', hl⟩ := hg.joined_linked hj
  rw [(connect_nodes doc g).1] at hn hm
  rw [hn] at hn'; rw [hm] at hm'
  cases hn'; cases hm'
  have e : edgeCost (connectNearest doc g) x y = n.location.distanceU32 m.location := by
    simp [edgeCost, RouteGraph.getNode, (connect_nodes doc g).1, hn, hm]
  rw [e]
  obtain ⟨k1, n1, -, a1, a2, a3, k2, n2, hk2, a4⟩ := h.node_bounds hg (List.mem_of_getElem? hn)
  obtain ⟨k3, n3, -, b1, b2, b3, k4, n4, hk4, b4⟩ := h.node_bounds hg (List.mem_of_getElem? hm)
  have s1 := h.small k2 n2 hk2
  have s2 := h.small k4 n4 hk4
  have c1 := col_le k1
  have c3 := col_le k3
  apply distance_axis _ _ hl.1.axis
  have x1 : |m.location.x - n.location.x| ≤ 1150 := abs_le.mpr ⟨by linarith, by linarith⟩
  have x2 : |m.location.y - n.location.y| ≤ 1000000040 := abs_le.mpr ⟨by linarith, by linarith⟩
  linarith

end Seiren
