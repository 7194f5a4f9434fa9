import Verif.Proofs.Streets
import Mathlib.Tactic.Linarith
import Mathlib.Tactic.NormNum
import Mathlib.Tactic.Push
/-! # The road map of modules with at most three tables (one row of the grid) -/

namespace Seiren
open Spec

/-- The reference means a table or a column that exists. -/
def ValidRef (ns : List Nat) : NodeRef → Prop
  | .table k => ∃ n, ns[k]? = some n
  | .column k j => ∃ n, ns[k]? = some n ∧ j + 2 ≤ n

/-- At most three tables, each with a header, and connections between existing tables and columns. -/
structure OneRow (ns : List Nat) (cs : List (NodeRef × NodeRef)) : Prop where
  few : ns.length ≤ 3
  pos : ∀ (k n : Nat), ns[k]? = some n → 1 ≤ n
  valid : ∀ c ∈ cs, ValidRef ns c.1 ∧ ValidRef ns c.2

theorem OneRow.lt {ns : List Nat} {cs : List (NodeRef × NodeRef)} (h : OneRow ns cs) {k n : Nat} (hk : ns[k]? = some n) : k < 3 :=
  lt_of_lt_of_le (List.getElem?_eq_some_iff.mp hk).1 h.few

theorem tableRect_row (ns : List Nat) {k : Nat} (hk : k < 3) (n : Nat) :
    tableRect ns k n = ⟨⟨50 + 380 * (k : Rat), 50⟩, ⟨300, 35 * (n : Rat)⟩⟩ := by
  have h1 : k % 3 = k := Nat.mod_eq_of_lt hk
  have h2 : k / 3 = 0 := Nat.div_eq_of_lt hk
  simp only [tableRect, h1, h2, rowTop]

theorem lineRect_row (ns : List Nat) {k : Nat} (hk : k < 3) (j : Nat) :
    lineRect ns k j = ⟨⟨50 + 380 * (k : Rat), 50 + 35 * (j : Rat)⟩, ⟨300, 35⟩⟩ := by
  have h1 : k % 3 = k := Nat.mod_eq_of_lt hk
  have h2 : k / 3 = 0 := Nat.div_eq_of_lt hk
  simp only [lineRect, h1, h2, rowTop]

/-- What is known about an end of a relation. -/
def EndOf (ns : List Nat) (S : List (Point × Orientation)) (p : Point) (o : Orientation) : Prop :=
  ∃ (k n : Nat), ns[k]? = some n ∧
    match o with
    | .left => p.x = 50 + 380 * (k : Rat) ∧ 50 < p.y ∧ p.y < 50 + 35 * (n : Rat) ∧ (⟨350 + 380 * (k : Rat), p.y⟩, .right) ∈ S
    | .right => p.x = 350 + 380 * (k : Rat) ∧ 50 < p.y ∧ p.y < 50 + 35 * (n : Rat) ∧ (⟨50 + 380 * (k : Rat), p.y⟩, .left) ∈ S
    | .up => p = ⟨200 + 380 * (k : Rat), 50⟩ ∧ (⟨200 + 380 * (k : Rat), 50 + 35 * (n : Rat)⟩, .down) ∈ S
    | .down => p = ⟨200 + 380 * (k : Rat), 50 + 35 * (n : Rat)⟩

theorem endsOf_cases {ns : List Nat} (hfew : ns.length ≤ 3) (hpos : ∀ (k n : Nat), ns[k]? = some n → 1 ≤ n) {r : NodeRef}
    (hr : ValidRef ns r) {p : Point} {o : Orientation} (h : (p, o) ∈ endsOf ns r) : EndOf ns (endsOf ns r) p o := by
  cases r with
  | table k =>
    obtain ⟨n, hn⟩ := hr
    have hk : k < 3 := lt_of_lt_of_le (List.getElem?_eq_some_iff.mp hn).1 hfew
    have hp := hpos k n hn
    have hp' : (1 : Rat) ≤ n := by exact_mod_cast hp
    refine ⟨k, n, hn, ?_⟩
    simp only [endsOf, sidesOf, refRect, hn, Option.getD_some, tableRect_row ns hk n, List.map_cons, List.map_nil,
      sideMiddle, List.mem_cons, List.not_mem_nil, or_false, Prod.mk.injEq] at h ⊢
    rcases h with ⟨rfl, rfl⟩ | ⟨rfl, rfl⟩ | ⟨rfl, rfl⟩ | ⟨rfl, rfl⟩ <;> simp
    · exact ⟨by ring, by ring⟩
    · exact ⟨by ring, hp⟩
    · ring
    · exact ⟨hp, by ring⟩
  | column k j =>
    obtain ⟨n, hn, hj⟩ := hr
    have hk : k < 3 := lt_of_lt_of_le (List.getElem?_eq_some_iff.mp hn).1 hfew
    have hj' : (j : Rat) + 2 ≤ n := by exact_mod_cast hj
    have hj0 : (0 : Rat) ≤ j := by exact_mod_cast Nat.zero_le j
    refine ⟨k, n, hn, ?_⟩
    simp only [endsOf, sidesOf, refRect, lineRect_row ns hk, hn, Option.some.injEq] at h ⊢
    by_cases hl : n = j + 2
    · have hl' : (n : Rat) = j + 2 := by exact_mod_cast hl
      simp only [hl, if_true, List.map_cons, List.map_nil, sideMiddle, List.mem_cons, List.not_mem_nil, or_false, Prod.mk.injEq] at h ⊢
      rcases h with ⟨rfl, rfl⟩ | ⟨rfl, rfl⟩ | ⟨rfl, rfl⟩ <;> simp
      · refine ⟨by ring, by linarith, by linarith⟩
      · constructor <;> ring
      · refine ⟨by linarith, by linarith, by ring⟩
    · simp only [hl, if_false, List.map_cons, List.map_nil, sideMiddle, List.mem_cons, List.not_mem_nil, or_false, Prod.mk.injEq] at h ⊢
      rcases h with ⟨rfl, rfl⟩ | ⟨rfl, rfl⟩ <;> simp
      · refine ⟨by ring, by linarith, by linarith⟩
      · refine ⟨by linarith, by linarith, by ring⟩

theorem EndOf.mono {ns : List Nat} {S S' : List (Point × Orientation)} (hS : ∀ x ∈ S, x ∈ S') {p : Point} {o : Orientation}
    (h : EndOf ns S p o) : EndOf ns S' p o := by
  obtain ⟨k, n, hn, h⟩ := h
  refine ⟨k, n, hn, ?_⟩
  cases o
  · exact ⟨h.1, hS _ h.2⟩
  · exact h
  · exact ⟨h.1, h.2.1, h.2.2.1, hS _ h.2.2.2⟩
  · exact ⟨h.1, h.2.1, h.2.2.1, hS _ h.2.2.2⟩

theorem allEnds_cases {ns : List Nat} {cs : List (NodeRef × NodeRef)} (h : OneRow ns cs) {p : Point} {o : Orientation}
    (hp : (p, o) ∈ allEnds ns cs) : EndOf ns (allEnds ns cs) p o := by
  simp only [allEnds, List.mem_flatMap, List.mem_append] at hp
  obtain ⟨c, hc, hp | hp⟩ := hp
  · exact (endsOf_cases h.few h.pos (h.valid c hc).1 hp).mono fun x hx => by
      simp only [allEnds, List.mem_flatMap, List.mem_append]; exact ⟨c, hc, .inl hx⟩
  · exact (endsOf_cases h.few h.pos (h.valid c hc).2 hp).mono fun x hx => by
      simp only [allEnds, List.mem_flatMap, List.mem_append]; exact ⟨c, hc, .inr hx⟩

/-! ## Corners and crossings -/

theorem mem_corners {ns : List Nat} {cs : List (NodeRef × NodeRef)} (h : OneRow ns cs) {p : Point} :
    p ∈ corners ns ↔ ∃ (k n : Nat), ns[k]? = some n ∧ (p.x = 10 + 380 * (k : Rat) ∨ p.x = 390 + 380 * (k : Rat)) ∧
      (p.y = 10 ∨ p.y = 90 + 35 * (n : Rat)) := by
  simp only [corners, List.mem_flatMap, mem_tableRects]
  constructor
  · rintro ⟨r, ⟨k, n, hn, rfl⟩, hp⟩
    refine ⟨k, n, hn, ?_⟩
    simp only [tableRect_row ns (h.lt hn), frameCorners, List.mem_cons, List.not_mem_nil, or_false] at hp
    rcases hp with rfl | rfl | rfl | rfl <;> simp only
    · exact ⟨.inl (by ring), .inl (by norm_num)⟩
    · exact ⟨.inr (by ring), .inl (by norm_num)⟩
    · exact ⟨.inr (by ring), .inr (by ring)⟩
    · exact ⟨.inl (by ring), .inr (by ring)⟩
  · rintro ⟨k, n, hn, hx, hy⟩
    refine ⟨_, ⟨k, n, hn, rfl⟩, ?_⟩
    obtain ⟨x, y⟩ := p
    simp only [tableRect_row ns (h.lt hn), frameCorners, List.mem_cons, List.not_mem_nil, or_false, Point.mk.injEq] at hx hy ⊢
    rcases hx with rfl | rfl <;> rcases hy with rfl | rfl
    · exact .inl ⟨by ring, by norm_num⟩
    · exact .inr (.inr (.inr ⟨by ring, by ring⟩))
    · exact .inr (.inl ⟨by ring, by norm_num⟩)
    · exact .inr (.inr (.inl ⟨by ring, by ring⟩))

theorem mem_crossings {ns : List Nat} {es : List (Point × Orientation)} {p : Point} :
    p ∈ crossings ns es ↔ ¬ CloseToTable ns p ∧ (p ∈ corners ns ∨
      ∃ c o j, (c, o) ∈ es ∧ j ∈ corners ns ∧ Sees ns c o j ∧ p = crossingAt c o j) := by
  simp only [crossings, List.mem_filter, List.mem_append, List.mem_flatMap, List.mem_map, decide_eq_true_eq, Prod.exists]
  constructor
  · rintro ⟨h | ⟨c, o, hc, j, ⟨hj, hs⟩, rfl⟩, hp⟩
    · exact ⟨hp, .inl h⟩
    · exact ⟨hp, .inr ⟨c, o, j, hc, hj, hs, rfl⟩⟩
  · rintro ⟨hp, h | ⟨c, o, j, hc, hj, hs, rfl⟩⟩
    · exact ⟨.inl h, hp⟩
    · exact ⟨.inr ⟨c, o, hc, j, ⟨hj, hs⟩, rfl⟩, hp⟩

theorem mem_places {ns : List Nat} {es : List (Point × Orientation)} {n : RouteNodeData} :
    n ∈ places ns es ↔ (n.orientation = none ∧ n.location ∈ crossings ns es) ∨
      ∃ o, n.orientation = some o ∧ (n.location, o) ∈ es := by
  obtain ⟨p, o⟩ := n
  simp only [places, List.mem_eraseDups, List.mem_append, List.mem_map, RouteNodeData.mk.injEq, Prod.exists]
  constructor
  · rintro (⟨x, hx, rfl, rfl⟩ | ⟨x, y, hx, rfl, rfl⟩)
    · exact .inl ⟨rfl, hx⟩
    · exact .inr ⟨y, rfl, hx⟩
  · rintro (⟨h1, h2⟩ | ⟨y, h1, h2⟩)
    · exact .inl ⟨p, h2, rfl, h1.symm⟩
    · exact .inr ⟨p, y, h2, rfl, h1.symm⟩

/-! ## The places -/

/-- The left and the right end at height `y` of table number `k`. -/
def HasSides (S : List (Point × Orientation)) (k : Nat) (y : Rat) : Prop :=
  (⟨50 + 380 * (k : Rat), y⟩, .left) ∈ S ∧ (⟨350 + 380 * (k : Rat), y⟩, .right) ∈ S

/-- The upper and the lower end of table number `k`, which has `m` lines. -/
def HasUpDown (S : List (Point × Orientation)) (k m : Nat) : Prop :=
  (⟨200 + 380 * (k : Rat), 50⟩, .up) ∈ S ∧ (⟨200 + 380 * (k : Rat), 50 + 35 * (m : Rat)⟩, .down) ∈ S

/-- A corner of a frame. -/
def CornerPlace (ns : List Nat) (n : RouteNodeData) : Prop :=
  n.orientation = none ∧ ∃ (k m : Nat), ns[k]? = some m ∧
    (n.location.x = 10 + 380 * (k : Rat) ∨ n.location.x = 390 + 380 * (k : Rat)) ∧
    (n.location.y = 10 ∨ n.location.y = 90 + 35 * (m : Rat))

/-- A crossing on the way to the left or to the right from an end. -/
def SidePlace (ns : List Nat) (S : List (Point × Orientation)) (n : RouteNodeData) : Prop :=
  n.orientation = none ∧ ∃ (k m : Nat), ns[k]? = some m ∧ 50 < n.location.y ∧ n.location.y < 50 + 35 * (m : Rat) ∧
    HasSides S k n.location.y ∧ ∃ j ∈ corners ns, n.location.x = j.x ∧
      (Sees ns ⟨50 + 380 * (k : Rat), n.location.y⟩ .left j ∨ Sees ns ⟨350 + 380 * (k : Rat), n.location.y⟩ .right j)

/-- A crossing above or below an end. -/
def MiddlePlace (ns : List Nat) (S : List (Point × Orientation)) (n : RouteNodeData) : Prop :=
  n.orientation = none ∧ ∃ (k m : Nat), ns[k]? = some m ∧ n.location.x = 200 + 380 * (k : Rat) ∧
    ((HasUpDown S k m ∧ n.location.y = 10) ∨
      ((⟨200 + 380 * (k : Rat), 50 + 35 * (m : Rat)⟩, .down) ∈ S ∧
        ∃ (i m' : Nat), ns[i]? = some m' ∧ m ≤ m' ∧ n.location.y = 90 + 35 * (m' : Rat)))

/-- An end of a relation. -/
def EndPlace (ns : List Nat) (S : List (Point × Orientation)) (n : RouteNodeData) : Prop :=
  ∃ (k m : Nat), ns[k]? = some m ∧
    ((n.orientation = some .left ∧ n.location.x = 50 + 380 * (k : Rat) ∧ 50 < n.location.y ∧ n.location.y < 50 + 35 * (m : Rat) ∧
        HasSides S k n.location.y) ∨
      (n.orientation = some .right ∧ n.location.x = 350 + 380 * (k : Rat) ∧ 50 < n.location.y ∧ n.location.y < 50 + 35 * (m : Rat) ∧
        HasSides S k n.location.y) ∨
      (n.orientation = some .up ∧ n.location = ⟨200 + 380 * (k : Rat), 50⟩ ∧ HasUpDown S k m) ∨
      (n.orientation = some .down ∧ n.location = ⟨200 + 380 * (k : Rat), 50 + 35 * (m : Rat)⟩ ∧
        (⟨200 + 380 * (k : Rat), 50 + 35 * (m : Rat)⟩, .down) ∈ S))

theorem place_cases {ns : List Nat} {cs : List (NodeRef × NodeRef)} (h : OneRow ns cs) {n : RouteNodeData}
    (hn : n ∈ places ns (allEnds ns cs)) : CornerPlace ns n ∨ SidePlace ns (allEnds ns cs) n ∨
      MiddlePlace ns (allEnds ns cs) n ∨ EndPlace ns (allEnds ns cs) n := by
  obtain ⟨⟨x, y⟩, on⟩ := n
  rcases mem_places.mp hn with ⟨ho, hc⟩ | ⟨o, ho, hc⟩
  · simp only at ho hc
    subst ho
    obtain ⟨hclose, hc | ⟨c, o, j, hc, hj, hs, hp⟩⟩ := mem_crossings.mp hc
    · exact .inl ⟨rfl, (mem_corners h).mp hc⟩
    · obtain ⟨cx, cy⟩ := c
      obtain ⟨k, m, hm, he⟩ := allEnds_cases h hc
      cases o
      · -- up
        obtain ⟨he1, he2⟩ := he
        obtain ⟨k', m', hm', hx', hy'⟩ := (mem_corners h).mp hj
        simp only [crossingAt, Point.mk.injEq] at hp he1
        obtain ⟨rfl, rfl⟩ := hp
        obtain ⟨rfl, rfl⟩ := he1
        simp only [Sees] at hs
        refine .inr (.inr (.inl ⟨rfl, k, m, hm, rfl, .inl ⟨⟨hc, he2⟩, ?_⟩⟩))
        rcases hy' with hy' | hy'
        · exact hy'
        · have : (0 : Rat) ≤ m' := by exact_mod_cast Nat.zero_le m'
          linarith
      · -- down
        obtain ⟨k', m', hm', hx', hy'⟩ := (mem_corners h).mp hj
        simp only [crossingAt, Point.mk.injEq] at hp he
        obtain ⟨rfl, rfl⟩ := hp
        obtain ⟨rfl, rfl⟩ := he
        simp only [Sees] at hs
        refine .inr (.inr (.inl ⟨rfl, k, m, hm, rfl, .inr ⟨hc, k', m', hm', ?_, ?_⟩⟩))
        · rcases hy' with hy' | hy'
          · have : (0 : Rat) ≤ m := by exact_mod_cast Nat.zero_le m
            linarith
          · by_contra hlt
            have h1 : (m' : Rat) + 1 ≤ m := by exact_mod_cast (by omega : m' + 1 ≤ m)
            apply hclose
            refine ⟨_, (mem_tableRects ns _).mpr ⟨k, m, hm, rfl⟩, ?_⟩
            rw [tableRect_row ns (h.lt hm)]
            simp only
            refine ⟨by linarith, by linarith, by linarith, by linarith⟩
        · rcases hy' with hy' | hy'
          · have : (0 : Rat) ≤ m := by exact_mod_cast Nat.zero_le m
            linarith
          · exact hy'
      · -- left
        obtain ⟨he1, he2, he3, he4⟩ := he
        simp only [crossingAt, Point.mk.injEq] at hp he1 he2 he3 he4
        obtain ⟨rfl, rfl⟩ := hp
        subst he1
        exact .inr (.inl ⟨rfl, k, m, hm, he2, he3, ⟨hc, he4⟩, j, hj, rfl, .inl hs⟩)
      · -- right
        obtain ⟨he1, he2, he3, he4⟩ := he
        simp only [crossingAt, Point.mk.injEq] at hp he1 he2 he3 he4
        obtain ⟨rfl, rfl⟩ := hp
        subst he1
        exact .inr (.inl ⟨rfl, k, m, hm, he2, he3, ⟨he4, hc⟩, j, hj, rfl, .inr hs⟩)
  · simp only at ho hc
    subst ho
    obtain ⟨k, m, hm, he⟩ := allEnds_cases h hc
    refine .inr (.inr (.inr ⟨k, m, hm, ?_⟩))
    cases o
    · obtain ⟨he1, he2⟩ := he
      simp only [Point.mk.injEq] at he1
      obtain ⟨rfl, rfl⟩ := he1
      exact .inr (.inr (.inl ⟨rfl, rfl, hc, he2⟩))
    · simp only [Point.mk.injEq] at he
      obtain ⟨rfl, rfl⟩ := he
      exact .inr (.inr (.inr ⟨rfl, rfl, hc⟩))
    · obtain ⟨he1, he2, he3, he4⟩ := he
      simp only at he1
      subst he1
      exact .inl ⟨rfl, rfl, he2, he3, hc, he4⟩
    · obtain ⟨he1, he2, he3, he4⟩ := he
      simp only at he1
      subst he1
      exact .inr (.inl ⟨rfl, rfl, he2, he3, he4, hc⟩)

theorem OneRow.three {ns : List Nat} {cs : List (NodeRef × NodeRef)} (h : OneRow ns cs) {k n : Nat} (hk : ns[k]? = some n) :
    k = 0 ∨ k = 1 ∨ k = 2 := by
  have := h.lt hk
  omega

theorem street_x {ns : List Nat} {cs : List (NodeRef × NodeRef)} (h : OneRow ns cs) {j : Point} (hj : j ∈ corners ns) :
    ∃ i : Nat, i ≤ 3 ∧ i ≤ ns.length ∧ j.x = 10 + 380 * (i : Rat) := by
  obtain ⟨k, m, hm, hx, -⟩ := (mem_corners h).mp hj
  have hk := h.lt hm
  have hk' := (List.getElem?_eq_some_iff.mp hm).1
  rcases hx with hx | hx
  · exact ⟨k, by omega, by omega, hx⟩
  · refine ⟨k + 1, by omega, by omega, ?_⟩
    push_cast
    linarith

/-- No multiple of 380 fits: a street is not beside a table at a distance of less than 40. -/
theorem street_off {i k : Nat} {x : Rat} (hx : x = 10 + 380 * (i : Rat)) : x < 11 + 380 * (k : Rat) ∨ 389 + 380 * (k : Rat) < x := by
  rcases Nat.lt_or_ge k i with h | h
  · have : (k : Rat) + 1 ≤ i := by exact_mod_cast h
    right; linarith
  · have : (i : Rat) ≤ k := by exact_mod_cast h
    left; linarith

/-- A place at the height of the inside of a table and not beside it is one of its ends. -/
theorem inside_place {ns : List Nat} {cs : List (NodeRef × NodeRef)} (h : OneRow ns cs) {n : RouteNodeData}
    (hn : n ∈ places ns (allEnds ns cs)) {k m : Nat} (hm : ns[k]? = some m) (hy1 : 50 < n.location.y)
    (hy2 : n.location.y < 50 + 35 * (m : Rat)) (hx1 : 50 + 380 * (k : Rat) ≤ n.location.x)
    (hx2 : n.location.x ≤ 350 + 380 * (k : Rat)) :
    (n.orientation = some .left ∧ n.location.x = 50 + 380 * (k : Rat) ∨
      n.orientation = some .right ∧ n.location.x = 350 + 380 * (k : Rat)) ∧ HasSides (allEnds ns cs) k n.location.y := by
  have same : ∀ {k' : Nat} {a : Rat}, 50 ≤ a → a ≤ 350 → n.location.x = a + 380 * (k' : Rat) → k' = k := by
    intro k' a h1 h2 hx
    by_contra hne
    rcases Nat.lt_or_gt_of_ne hne with hlt | hlt
    · have : (k' : Rat) + 1 ≤ k := by exact_mod_cast hlt
      linarith
    · have : (k : Rat) + 1 ≤ k' := by exact_mod_cast hlt
      linarith
  rcases place_cases h hn with ⟨-, k', m', hm', hx, -⟩ | ⟨-, k', m', hm', -, -, -, j, hj, hx, -⟩ |
      ⟨-, k', m', hm', hx, hv⟩ | ⟨k', m', hm', he⟩
  · exfalso
    rcases hx with hx | hx
    · rcases street_off (k := k) hx with h1 | h1 <;> linarith
    · rcases street_off (i := k' + 1) (k := k) (x := n.location.x) (by push_cast; linarith) with h1 | h1 <;> linarith
  · exfalso
    obtain ⟨i, -, -, hi⟩ := street_x h hj
    rcases street_off (k := k) (hx.trans hi) with h1 | h1 <;> linarith
  · exfalso
    have := same (by norm_num) (by norm_num) hx
    subst this
    rw [hm] at hm'
    cases hm'
    rcases hv with ⟨-, hv⟩ | ⟨-, i, m', -, hle, hv⟩
    · linarith
    · have : (m : Rat) ≤ m' := by exact_mod_cast hle
      linarith
  · rcases he with ⟨ho, hx, -, -, hs⟩ | ⟨ho, hx, -, -, hs⟩ | ⟨-, hl, -⟩ | ⟨-, hl, -⟩
    · have := same (le_refl _) (by norm_num) hx
      subst this
      exact ⟨.inl ⟨ho, hx⟩, hs⟩
    · have := same (by norm_num) (le_refl _) hx
      subst this
      exact ⟨.inr ⟨ho, hx⟩, hs⟩
    · rw [hl] at hy1
      exact absurd hy1 (lt_irrefl _)
    · have := same (k' := k') (a := 200) (by norm_num) (by norm_num) (by rw [hl])
      subst this
      rw [hm] at hm'
      cases hm'
      rw [hl] at hy2
      exact absurd hy2 (lt_irrefl _)

theorem atHeight_row {ns : List Nat} {cs : List (NodeRef × NodeRef)} (h : OneRow ns cs) {k m : Nat} (hm : ns[k]? = some m) {y : Rat}
    (hy1 : 50 < y) (hy2 : y < 50 + 35 * (m : Rat)) : AtHeightOf (tableRect ns k m) y := by
  rw [tableRect_row ns (h.lt hm)]
  exact ⟨by simp only; linarith, by simp only; linarith⟩

/-- What comes from the left to the first table, at the height of its inside, comes to one of its ends. -/
theorem first_end {ns : List Nat} {cs : List (NodeRef × NodeRef)} (h : OneRow ns cs) {n : RouteNodeData}
    (hn : n ∈ places ns (allEnds ns cs)) (ho : Open .right n) {m : Nat} (hm : ns[0]? = some m) (hy1 : 50 < n.location.y)
    (hy2 : n.location.y < 50 + 35 * (m : Rat)) (hx : n.location.x < 350) :
    HasSides (allEnds ns cs) 0 n.location.y ∧ n.location.x < 50 := by
  by_cases hx1 : 50 ≤ n.location.x
  · exfalso
    rcases inside_place h hn hm hy1 hy2 (by simpa using hx1) (by simpa using hx.le) with ⟨⟨h1, -⟩ | ⟨-, h1⟩, -⟩
    · rcases ho with ho | ho <;> rw [h1] at ho <;> cases ho
    · simp at h1; linarith
  · push Not at hx1
    refine ⟨?_, hx1⟩
    have pos : ∀ k : Nat, (0 : Rat) ≤ k := fun k => by exact_mod_cast Nat.zero_le k
    rcases place_cases h hn with ⟨-, k', m', hm', hx', hy'⟩ | ⟨-, k', m', hm', -, -, hs, j, hj, hx', hsee⟩ |
        ⟨-, k', m', hm', hx', -⟩ | ⟨k', m', hm', he⟩
    · exfalso
      have hk := pos k'
      rcases hx' with hx' | hx'
      · have : k' = 0 := by
          by_contra hne
          have : (1 : Rat) ≤ k' := by exact_mod_cast Nat.one_le_iff_ne_zero.mpr hne
          linarith
        subst this
        rw [hm] at hm'
        cases hm'
        rcases hy' with hy' | hy' <;> linarith
      · linarith
    · by_cases hk : k' = 0
      · subst hk; exact hs
      · exfalso
        have hk1 : (1 : Rat) ≤ k' := by exact_mod_cast Nat.one_le_iff_ne_zero.mpr hk
        rcases hsee with hsee | hsee
        · have := hsee.2 _ ((mem_tableRects ns _).mpr ⟨0, m, hm, rfl⟩) (atHeight_row h hm hy1 hy2)
          rw [tableRect_row ns (h.lt hm)] at this
          simp only [Nat.cast_zero] at this
          have := this (by linarith)
          linarith
        · have := hsee.1
          simp only at this
          linarith
    · exfalso
      have hk := pos k'
      linarith
    · exfalso
      have hk := pos k'
      rcases he with ⟨-, hx', -⟩ | ⟨-, hx', -⟩ | ⟨-, hl, -⟩ | ⟨-, hl, -⟩
      · linarith
      · linarith
      · rw [hl] at hx1; simp only at hx1; linarith
      · rw [hl] at hx1; simp only at hx1; linarith

/-- What comes from the right to the last table, at the height of its inside, comes to one of its ends. -/
theorem last_end {ns : List Nat} {cs : List (NodeRef × NodeRef)} (h : OneRow ns cs) {n : RouteNodeData}
    (hn : n ∈ places ns (allEnds ns cs)) (ho : Open .left n) {k m : Nat} (hm : ns[k]? = some m) (hlast : ns.length = k + 1)
    (hy1 : 50 < n.location.y) (hy2 : n.location.y < 50 + 35 * (m : Rat)) (hx : 50 + 380 * (k : Rat) < n.location.x) :
    HasSides (allEnds ns cs) k n.location.y ∧ 350 + 380 * (k : Rat) < n.location.x := by
  by_cases hx1 : n.location.x ≤ 350 + 380 * (k : Rat)
  · exfalso
    rcases inside_place h hn hm hy1 hy2 hx.le hx1 with ⟨⟨-, h1⟩ | ⟨h1, -⟩, -⟩
    · linarith
    · rcases ho with ho | ho <;> rw [h1] at ho <;> cases ho
  · push Not at hx1
    refine ⟨?_, hx1⟩
    have le : ∀ {k' m' : Nat}, ns[k']? = some m' → (k' : Rat) ≤ k := fun {k' m'} hk' => by
      have := (List.getElem?_eq_some_iff.mp hk').1
      exact_mod_cast (by omega : k' ≤ k)
    rcases place_cases h hn with ⟨-, k', m', hm', hx', hy'⟩ | ⟨-, k', m', hm', -, -, hs, j, hj, hx', hsee⟩ |
        ⟨-, k', m', hm', hx', -⟩ | ⟨k', m', hm', he⟩
    · exfalso
      have hk := le hm'
      rcases hx' with hx' | hx'
      · linarith
      · have : k' = k := by
          by_contra hne
          have h1 := (List.getElem?_eq_some_iff.mp hm').1
          have : (k' : Rat) + 1 ≤ k := by exact_mod_cast (by omega : k' + 1 ≤ k)
          linarith
        subst this
        rw [hm] at hm'
        cases hm'
        rcases hy' with hy' | hy' <;> linarith
    · by_cases hk : k' = k
      · subst hk; exact hs
      · exfalso
        have h1 := (List.getElem?_eq_some_iff.mp hm').1
        have hk1 : (k' : Rat) + 1 ≤ k := by exact_mod_cast (by omega : k' + 1 ≤ k)
        rcases hsee with hsee | hsee
        · have := hsee.1
          simp only at this
          linarith
        · have := hsee.2 _ ((mem_tableRects ns _).mpr ⟨k, m, hm, rfl⟩) (atHeight_row h hm hy1 hy2)
          rw [tableRect_row ns (h.lt hm)] at this
          simp only at this
          have := this (by linarith)
          linarith
    · exfalso
      have hk := le hm'
      linarith
    · exfalso
      have hk := le hm'
      rcases he with ⟨-, hx', -⟩ | ⟨-, hx', -⟩ | ⟨-, hl, -⟩ | ⟨-, hl, -⟩
      · linarith
      · linarith
      · rw [hl] at hx1; simp only at hx1; linarith
      · rw [hl] at hx1; simp only at hx1; linarith

/-- A place above the inside of a table, open downwards, is above an upper end of the table. -/
theorem above_end {ns : List Nat} {cs : List (NodeRef × NodeRef)} (h : OneRow ns cs) {n : RouteNodeData}
    (hn : n ∈ places ns (allEnds ns cs)) (ho : Open .down n) {k m : Nat} (hm : ns[k]? = some m)
    (hx1 : 50 + 380 * (k : Rat) < n.location.x) (hx2 : n.location.x < 350 + 380 * (k : Rat))
    (hy : n.location.y < 50 + 35 * (m : Rat)) :
    HasUpDown (allEnds ns cs) k m ∧ n.location.x = 200 + 380 * (k : Rat) ∧ n.location.y = 10 := by
  have same : ∀ {k' : Nat} {a : Rat}, 50 ≤ a → a ≤ 350 → n.location.x = a + 380 * (k' : Rat) → k' = k := by
    intro k' a h1 h2 hx
    by_contra hne
    rcases Nat.lt_or_gt_of_ne hne with hlt | hlt
    · have : (k' : Rat) + 1 ≤ k := by exact_mod_cast hlt
      linarith
    · have : (k : Rat) + 1 ≤ k' := by exact_mod_cast hlt
      linarith
  rcases place_cases h hn with ⟨-, k', m', hm', hx, -⟩ | ⟨-, k', m', hm', -, -, -, j, hj, hx, -⟩ |
      ⟨-, k', m', hm', hx, hv⟩ | ⟨k', m', hm', he⟩
  · exfalso
    rcases hx with hx | hx
    · rcases street_off (k := k) hx with h1 | h1 <;> linarith
    · rcases street_off (i := k' + 1) (k := k) (x := n.location.x) (by push_cast; linarith) with h1 | h1 <;> linarith
  · exfalso
    obtain ⟨i, -, -, hi⟩ := street_x h hj
    rcases street_off (k := k) (hx.trans hi) with h1 | h1 <;> linarith
  · have := same (by norm_num) (by norm_num) hx
    subst this
    rw [hm] at hm'
    cases hm'
    rcases hv with ⟨h1, hv⟩ | ⟨-, i, m', -, hle, hv⟩
    · exact ⟨h1, hx, hv⟩
    · exfalso
      have : (m : Rat) ≤ m' := by exact_mod_cast hle
      linarith
  · exfalso
    rcases he with ⟨ho', hx, -⟩ | ⟨ho', hx, -⟩ | ⟨ho', hl, -⟩ | ⟨ho', hl, -⟩
    · rcases ho with ho | ho <;> rw [ho'] at ho <;> cases ho
    · rcases ho with ho | ho <;> rw [ho'] at ho <;> cases ho
    · rcases ho with ho | ho <;> rw [ho'] at ho <;> cases ho
    · have := same (k' := k') (a := 200) (by norm_num) (by norm_num) (by rw [hl])
      subst this
      rw [hm] at hm'
      cases hm'
      rw [hl] at hy
      exact absurd hy (lt_irrefl _)

/-- A place below the top of a table, within its width and open upwards, is below the table. -/
theorem below_end {ns : List Nat} {cs : List (NodeRef × NodeRef)} (h : OneRow ns cs) {n : RouteNodeData}
    (hn : n ∈ places ns (allEnds ns cs)) (ho : Open .up n) {k m : Nat} (hm : ns[k]? = some m)
    (hx1 : 50 + 380 * (k : Rat) < n.location.x) (hx2 : n.location.x < 350 + 380 * (k : Rat))
    (hy : 50 < n.location.y) : 50 + 35 * (m : Rat) < n.location.y := by
  have same : ∀ {k' : Nat} {a : Rat}, 50 ≤ a → a ≤ 350 → n.location.x = a + 380 * (k' : Rat) → k' = k := by
    intro k' a h1 h2 hx
    by_contra hne
    rcases Nat.lt_or_gt_of_ne hne with hlt | hlt
    · have : (k' : Rat) + 1 ≤ k := by exact_mod_cast hlt
      linarith
    · have : (k : Rat) + 1 ≤ k' := by exact_mod_cast hlt
      linarith
  rcases place_cases h hn with ⟨-, k', m', hm', hx, -⟩ | ⟨-, k', m', hm', -, -, -, j, hj, hx, -⟩ |
      ⟨-, k', m', hm', hx, hv⟩ | ⟨k', m', hm', he⟩
  · exfalso
    rcases hx with hx | hx
    · rcases street_off (k := k) hx with h1 | h1 <;> linarith
    · rcases street_off (i := k' + 1) (k := k) (x := n.location.x) (by push_cast; linarith) with h1 | h1 <;> linarith
  · exfalso
    obtain ⟨i, -, -, hi⟩ := street_x h hj
    rcases street_off (k := k) (hx.trans hi) with h1 | h1 <;> linarith
  · have := same (by norm_num) (by norm_num) hx
    subst this
    rw [hm] at hm'
    cases hm'
    rcases hv with ⟨-, hv⟩ | ⟨-, i, m', -, hle, hv⟩
    · linarith
    · have : (m : Rat) ≤ m' := by exact_mod_cast hle
      linarith
  · exfalso
    rcases he with ⟨ho', hx, -⟩ | ⟨ho', hx, -⟩ | ⟨ho', hl, -⟩ | ⟨ho', hl, -⟩
    · rcases ho with ho | ho <;> rw [ho'] at ho <;> cases ho
    · rcases ho with ho | ho <;> rw [ho'] at ho <;> cases ho
    · rw [hl] at hy
      exact absurd hy (lt_irrefl _)
    · rcases ho with ho | ho <;> rw [ho'] at ho <;> cases ho

/-! ## Roads that would cross a table -/

/-- Between its ends a horizontal way passes the inside of table `k`, which has `w` lines. -/
def PassesAt (k w : Nat) (x x' y : Rat) : Prop :=
  x < 350 + 380 * (k : Rat) ∧ 50 + 380 * (k : Rat) < x' ∧ 50 < y ∧ y < 50 + 35 * (w : Rat)

theorem crosses_right {ns : List Nat} {k w : Nat} (hk : k < 3) {p q : Point} (ht : Towards .right p q)
    (h : Crosses (tableRect ns k w) p q) : PassesAt k w p.x q.x p.y := by
  obtain ⟨t, t0, t1, h1, h2, h3, h4⟩ := h
  obtain ⟨e, hlt⟩ := ht
  rw [tableRect_row ns hk] at h1 h2 h3 h4
  simp only [lerp, e] at h1 h2 h3 h4
  have a1 : 0 ≤ t * (q.x - p.x) := mul_nonneg t0 (by linarith)
  have a2 : 0 ≤ (1 - t) * (q.x - p.x) := mul_nonneg (by linarith) (by linarith)
  refine ⟨by linarith, by linarith, by linarith, by linarith⟩

theorem crosses_left {ns : List Nat} {k w : Nat} (hk : k < 3) {p q : Point} (ht : Towards .left p q)
    (h : Crosses (tableRect ns k w) p q) : PassesAt k w q.x p.x p.y := by
  obtain ⟨t, t0, t1, h1, h2, h3, h4⟩ := h
  obtain ⟨e, hlt⟩ := ht
  rw [tableRect_row ns hk] at h1 h2 h3 h4
  simp only [lerp, e] at h1 h2 h3 h4
  have a1 : 0 ≤ t * (p.x - q.x) := mul_nonneg t0 (by linarith)
  have a2 : 0 ≤ (1 - t) * (p.x - q.x) := mul_nonneg (by linarith) (by linarith)
  refine ⟨by linarith, by linarith, by linarith, by linarith⟩

/-- Between its ends a vertical way passes the inside of table `k`, which has `w` lines. -/
def PassesDown (k w : Nat) (x y y' : Rat) : Prop :=
  50 + 380 * (k : Rat) < x ∧ x < 350 + 380 * (k : Rat) ∧ y < 50 + 35 * (w : Rat) ∧ 50 < y'

theorem crosses_down {ns : List Nat} {k w : Nat} (hk : k < 3) {p q : Point} (ht : Towards .down p q)
    (h : Crosses (tableRect ns k w) p q) : PassesDown k w p.x p.y q.y := by
  obtain ⟨t, t0, t1, h1, h2, h3, h4⟩ := h
  obtain ⟨e, hlt⟩ := ht
  rw [tableRect_row ns hk] at h1 h2 h3 h4
  simp only [lerp, e] at h1 h2 h3 h4
  have a1 : 0 ≤ t * (q.y - p.y) := mul_nonneg t0 (by linarith)
  have a2 : 0 ≤ (1 - t) * (q.y - p.y) := mul_nonneg (by linarith) (by linarith)
  refine ⟨by linarith, by linarith, by linarith, by linarith⟩

theorem crosses_up {ns : List Nat} {k w : Nat} (hk : k < 3) {p q : Point} (ht : Towards .up p q)
    (h : Crosses (tableRect ns k w) p q) : PassesDown k w p.x q.y p.y := by
  obtain ⟨t, t0, t1, h1, h2, h3, h4⟩ := h
  obtain ⟨e, hlt⟩ := ht
  rw [tableRect_row ns hk] at h1 h2 h3 h4
  simp only [lerp, e] at h1 h2 h3 h4
  have a1 : 0 ≤ t * (p.y - q.y) := mul_nonneg t0 (by linarith)
  have a2 : 0 ≤ (1 - t) * (p.y - q.y) := mul_nonneg (by linarith) (by linarith)
  refine ⟨by linarith, by linarith, by linarith, by linarith⟩

/-- A place ahead with nothing in the way is at least as far as the neighbour. -/
theorem neighbour_le {ns : List Nat} {ps : List RouteNodeData} {d : Orientation} {a b : Nat} {n m k : RouteNodeData}
    (h : NeighbourIn ns ps d a b) (hn : ps[a]? = some n) (hm : ps[b]? = some m) (hk : k ∈ ps) (ha : Ahead d n k)
    (hfree : ¬ Obstructed ns d n.location k.location) : distance n.location m.location ≤ distance n.location k.location := by
  obtain ⟨n', m', hn', hm', -, hle⟩ := h
  rw [hn] at hn'
  rw [hm] at hm'
  cases hn'
  cases hm'
  obtain ⟨c, hc⟩ := List.getElem?_of_mem hk
  exact hle c k hc ⟨k, hc, ha, .inl hfree⟩

theorem neighbour_ahead {ns : List Nat} {ps : List RouteNodeData} {d : Orientation} {a b : Nat} {n m : RouteNodeData}
    (h : NeighbourIn ns ps d a b) (hn : ps[a]? = some n) (hm : ps[b]? = some m) : Ahead d n m := by
  obtain ⟨n', m', hn', hm', ⟨m'', hm'', ha, -⟩, -⟩ := h
  rw [hn] at hn'
  rw [hm] at hm' hm''
  cases hn'
  cases hm'
  cases hm''
  exact ha

theorem mem_place_end {ns : List Nat} {es : List (Point × Orientation)} {p : Point} {o : Orientation} (h : (p, o) ∈ es) :
    (⟨p, some o⟩ : RouteNodeData) ∈ places ns es := mem_places.mpr (.inr ⟨o, rfl, h⟩)

/-- No road goes up or down through a table. -/
theorem no_road_down {ns : List Nat} {cs : List (NodeRef × NodeRef)} (h : OneRow ns cs) {a b : Nat} {n m : RouteNodeData}
    (hr : NeighbourIn ns (places ns (allEnds ns cs)) .down a b) (hn : (places ns (allEnds ns cs))[a]? = some n)
    (hm : (places ns (allEnds ns cs))[b]? = some m) {k w : Nat} (hk : ns[k]? = some w)
    (hc : Crosses (tableRect ns k w) n.location m.location) : False := by
  obtain ⟨ht, ho1, ho2⟩ := neighbour_ahead hr hn hm
  obtain ⟨c1, c2, c3, c4⟩ := crosses_down (h.lt hk) ht hc
  obtain ⟨⟨hu, -⟩, hx, hy⟩ := above_end h (List.mem_of_getElem? hn) ho1 hk c1 c2 c3
  have hle := neighbour_le hr hn hm (mem_place_end hu) ⟨⟨hx.symm, by simp only; rw [hy]; norm_num⟩, ho1, .inr rfl⟩ (by
    rintro ⟨-, r, hr, t, t0, t1, h1, h2, h3, h4⟩
    obtain ⟨k', w', hk', rfl⟩ := (mem_tableRects ns r).mp hr
    rw [tableRect_row ns (h.lt hk')] at h3
    simp only [inside, lerp, hy] at h3
    linarith)
  simp only [distance, ht.1, hx, hy, sub_self, abs_zero] at hle
  rw [abs_of_neg (by linarith), abs_of_neg (by norm_num)] at hle
  linarith

theorem no_road_up {ns : List Nat} {cs : List (NodeRef × NodeRef)} (h : OneRow ns cs) {a b : Nat} {n m : RouteNodeData}
    (hr : NeighbourIn ns (places ns (allEnds ns cs)) .up a b) (hn : (places ns (allEnds ns cs))[a]? = some n)
    (hm : (places ns (allEnds ns cs))[b]? = some m) {k w : Nat} (hk : ns[k]? = some w)
    (hc : Crosses (tableRect ns k w) n.location m.location) : False := by
  obtain ⟨ht, ho1, ho2⟩ := neighbour_ahead hr hn hm
  obtain ⟨c1, c2, c3, c4⟩ := crosses_up (h.lt hk) ht hc
  rw [← ht.1] at c1 c2
  obtain ⟨⟨-, hd⟩, hx, hy⟩ := above_end h (List.mem_of_getElem? hm) ho2 hk c1 c2 c3
  rw [ht.1] at c1 c2 hx
  have hbelow := below_end h (List.mem_of_getElem? hn) ho1 hk c1 c2 c4
  have hle := neighbour_le hr hn hm (mem_place_end hd) ⟨⟨hx.symm, hbelow⟩, ho1, .inr rfl⟩ (fun hob => hob.1 rfl)
  have w0 : (0 : Rat) ≤ w := by exact_mod_cast Nat.zero_le w
  simp only [distance, ht.1, hx, hy, sub_self, abs_zero] at hle
  rw [abs_of_pos (by linarith), abs_of_pos (by linarith)] at hle
  linarith

/-- A road to the right does not pass a table with ends at its height, if that is the first table in its way. -/
theorem no_road_right {ns : List Nat} {cs : List (NodeRef × NodeRef)} (h : OneRow ns cs) {a b : Nat} {n m : RouteNodeData}
    (hr : NeighbourIn ns (places ns (allEnds ns cs)) .right a b) (hn : (places ns (allEnds ns cs))[a]? = some n)
    (hm : (places ns (allEnds ns cs))[b]? = some m) {k w : Nat}
    (hc : PassesAt k w n.location.x m.location.x n.location.y)
    (hfirst : ∀ i v, ns[i]? = some v → i < k → ¬ PassesAt i v n.location.x m.location.x n.location.y)
    (hx : n.location.x < 50 + 380 * (k : Rat)) (hs : HasSides (allEnds ns cs) k n.location.y) : False := by
  obtain ⟨ht, ho1, ho2⟩ := neighbour_ahead hr hn hm
  obtain ⟨c1, c2, c3, c4⟩ := hc
  have hle := neighbour_le hr hn hm (mem_place_end hs.1) ⟨⟨rfl, hx⟩, ho1, .inr rfl⟩ (by
    rintro ⟨-, r, hr, t, t0, t1, h1, h2, h3, h4⟩
    obtain ⟨k', w', hk', rfl⟩ := (mem_tableRects ns r).mp hr
    rw [tableRect_row ns (h.lt hk')] at h1 h2 h3 h4
    simp only [inside, lerp] at h1 h2 h3 h4
    have a1 : 0 ≤ t * (50 + 380 * (k : Rat) - n.location.x) := mul_nonneg t0 (by linarith)
    have a2 : 0 ≤ (1 - t) * (50 + 380 * (k : Rat) - n.location.x) := mul_nonneg (by linarith) (by linarith)
    have hlt : k' < k := by
      by_contra hge
      have : (k : Rat) ≤ k' := by exact_mod_cast Nat.le_of_not_lt hge
      linarith
    have hlt' : (k' : Rat) + 1 ≤ k := by exact_mod_cast hlt
    exact hfirst k' w' hk' hlt ⟨by linarith, by linarith, by linarith, by linarith⟩)
  simp only [distance, ht.1, sub_self, abs_zero] at hle
  rw [abs_of_neg (by linarith), abs_of_neg (by linarith)] at hle
  linarith

/-- A road to the left does not pass a table with ends at its height, if that is the first table in its way. -/
theorem no_road_left {ns : List Nat} {cs : List (NodeRef × NodeRef)} (h : OneRow ns cs) {a b : Nat} {n m : RouteNodeData}
    (hr : NeighbourIn ns (places ns (allEnds ns cs)) .left a b) (hn : (places ns (allEnds ns cs))[a]? = some n)
    (hm : (places ns (allEnds ns cs))[b]? = some m) {k w : Nat}
    (hc : PassesAt k w m.location.x n.location.x n.location.y)
    (hfirst : ∀ i v, ns[i]? = some v → k < i → ¬ PassesAt i v m.location.x n.location.x n.location.y)
    (hx : 350 + 380 * (k : Rat) < n.location.x) (hs : HasSides (allEnds ns cs) k n.location.y) : False := by
  obtain ⟨ht, ho1, ho2⟩ := neighbour_ahead hr hn hm
  obtain ⟨c1, c2, c3, c4⟩ := hc
  have hle := neighbour_le hr hn hm (mem_place_end hs.2) ⟨⟨rfl, hx⟩, ho1, .inr rfl⟩ (by
    rintro ⟨-, r, hr, t, t0, t1, h1, h2, h3, h4⟩
    obtain ⟨k', w', hk', rfl⟩ := (mem_tableRects ns r).mp hr
    rw [tableRect_row ns (h.lt hk')] at h1 h2 h3 h4
    simp only [inside, lerp] at h1 h2 h3 h4
    have a1 : 0 ≤ t * (n.location.x - (350 + 380 * (k : Rat))) := mul_nonneg t0 (by linarith)
    have a2 : 0 ≤ (1 - t) * (n.location.x - (350 + 380 * (k : Rat))) := mul_nonneg (by linarith) (by linarith)
    have hlt : k < k' := by
      by_contra hge
      have : (k' : Rat) ≤ k := by exact_mod_cast Nat.le_of_not_lt hge
      linarith
    have hlt' : (k : Rat) + 1 ≤ k' := by exact_mod_cast hlt
    exact hfirst k' w' hk' hlt ⟨by linarith, by linarith, by linarith, by linarith⟩)
  simp only [distance, ht.1, sub_self, abs_zero] at hle
  rw [abs_of_pos (by linarith), abs_of_pos (by linarith)] at hle
  linarith

/-- With at most two tables no road passes through a table. -/
theorem no_road {ns : List Nat} {cs : List (NodeRef × NodeRef)} (h : OneRow ns cs) (htwo : ns.length ≤ 2) {d : Orientation}
    {a b : Nat} {n m : RouteNodeData} (hr : NeighbourIn ns (places ns (allEnds ns cs)) d a b)
    (hn : (places ns (allEnds ns cs))[a]? = some n) (hm : (places ns (allEnds ns cs))[b]? = some m) {k w : Nat}
    (hk : ns[k]? = some w) (hc : Crosses (tableRect ns k w) n.location m.location) : False := by
  obtain ⟨ht, ho1, ho2⟩ := neighbour_ahead hr hn hm
  have hnm := List.mem_of_getElem? hn
  have hmm := List.mem_of_getElem? hm
  cases d
  · exact no_road_up h hr hn hm hk hc
  · exact no_road_down h hr hn hm hk hc
  · have hc := crosses_left (h.lt hk) ht hc
    -- the last table in the way is the last of all or the first of all
    have last : ∀ {v : Nat} {i : Nat}, ns[i]? = some v → ns.length = i + 1 → ¬ PassesAt i v m.location.x n.location.x n.location.y := by
      intro v i hi hlen hp
      obtain ⟨hs, hx⟩ := last_end h hnm ho1 hi hlen hp.2.2.1 hp.2.2.2 hp.2.1
      refine no_road_left h hr hn hm hp ?_ hx hs
      intro j v' hj hij
      have := (List.getElem?_eq_some_iff.mp hj).1
      omega
    have hkl := (List.getElem?_eq_some_iff.mp hk).1
    by_cases hlast : ns.length = k + 1
    · exact last hk hlast hc
    · have hk0 : k = 0 := by omega
      subst hk0
      have hlen : ns.length = 2 := by omega
      obtain ⟨c1, c2, c3, c4⟩ := hc
      simp only [Nat.cast_zero, mul_zero, add_zero] at c1 c2
      obtain ⟨hs, hx⟩ := first_end h hmm ho2 hk (by rw [ht.1]; exact c3) (by rw [ht.1]; exact c4) c1
      rw [ht.1] at hs
      refine no_road_left h hr hn hm (k := 0) (w := w) ⟨by simpa using c1, by simpa using c2, c3, c4⟩ ?_ ?_ hs
      · intro j v hj hij
        have := (List.getElem?_eq_some_iff.mp hj).1
        exact last hj (by omega)
      · by_contra hge
        push Not at hge
        rcases inside_place h hnm hk c3 c4 (by simpa using c2.le) (by simpa using hge) with ⟨⟨-, h1⟩ | ⟨h1, -⟩, -⟩
        · simp at h1; linarith
        · rcases ho1 with ho | ho <;> rw [h1] at ho <;> cases ho
  · have hc := crosses_right (h.lt hk) ht hc
    have first : ∀ {v : Nat}, ns[0]? = some v → ¬ PassesAt 0 v n.location.x m.location.x n.location.y := by
      intro v hi hp
      obtain ⟨hs, hx⟩ := first_end h hnm ho1 hi hp.2.2.1 hp.2.2.2 (by simpa using hp.1)
      exact no_road_right h hr hn hm hp (fun j v' hj hij => absurd hij (Nat.not_lt_zero j)) (by simpa using hx) hs
    have hkl := (List.getElem?_eq_some_iff.mp hk).1
    by_cases hk0 : k = 0
    · subst hk0; exact first hk hc
    · have hlast : ns.length = k + 1 := by omega
      obtain ⟨c1, c2, c3, c4⟩ := hc
      obtain ⟨hs, hx⟩ := last_end h hmm ho2 hk hlast (by rw [ht.1]; exact c3) (by rw [ht.1]; exact c4) c2
      rw [ht.1] at hs
      refine no_road_right h hr hn hm (k := k) (w := w) ⟨c1, c2, c3, c4⟩ ?_ ?_ hs
      · intro j v hj hij
        have hj0 : j = 0 := by omega
        subst hj0
        exact first hj
      · by_contra hge
        push Not at hge
        rcases inside_place h hnm hk c3 c4 hge c1.le with ⟨⟨h1, -⟩ | ⟨-, h1⟩, -⟩
        · rcases ho1 with ho | ho <;> rw [h1] at ho <;> cases ho
        · linarith

end Seiren
