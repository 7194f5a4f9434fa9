import Verif.Proofs.ThreeRoutes
/-! # The road map of modules with any number of tables

The same as `Proofs/OneRow.lean`, for any number of rows.  A table is named by its column `c` (0, 1 or 2) and its row `r`. -/

namespace Seiren.Grid
open Spec

/-- The table in column `c` and row `r` exists and has `m` lines. -/
def Tab (ns : List Nat) (c r m : Nat) : Prop := c < 3 ∧ ns[3 * r + c]? = some m

/-- Each table has a header, and connections join existing tables and columns. -/
structure Ok (ns : List Nat) (cs : List (NodeRef × NodeRef)) : Prop where
  pos : ∀ (k n : Nat), ns[k]? = some n → 1 ≤ n
  valid : ∀ c ∈ cs, ValidRef ns c.1 ∧ ValidRef ns c.2

theorem tab_of {ns : List Nat} {k n : Nat} (h : ns[k]? = some n) : Tab ns (k % 3) (k / 3) n :=
  ⟨Nat.mod_lt _ (by omega), by rw [Nat.div_add_mod]; exact h⟩

theorem Tab.unique {ns : List Nat} {c r m m' : Nat} (h : Tab ns c r m) (h' : Tab ns c r m') : m = m' := by
  have := h.2.symm.trans h'.2
  exact Option.some.inj this

theorem Tab.rect {ns : List Nat} {c r m : Nat} (h : Tab ns c r m) :
    tableRect ns (3 * r + c) m = ⟨⟨50 + 380 * (c : Rat), rowTop ns r⟩, ⟨300, 35 * (m : Rat)⟩⟩ := by
  have hc := h.1
  have e1 : (3 * r + c) % 3 = c := by omega
  have e2 : (3 * r + c) / 3 = r := by omega
  simp only [tableRect, e1, e2]

theorem mem_rects {ns : List Nat} {R : Rect} :
    R ∈ tableRects ns ↔ ∃ c r m, Tab ns c r m ∧ R = ⟨⟨50 + 380 * (c : Rat), rowTop ns r⟩, ⟨300, 35 * (m : Rat)⟩⟩ := by
  rw [mem_tableRects]
  constructor
  · rintro ⟨k, n, hk, rfl⟩
    exact ⟨_, _, n, tab_of hk, rfl⟩
  · rintro ⟨c, r, m, h, rfl⟩
    exact ⟨_, m, h.2, h.rect.symm⟩

theorem Tab.mem {ns : List Nat} {c r m : Nat} (h : Tab ns c r m) :
    (⟨⟨50 + 380 * (c : Rat), rowTop ns r⟩, ⟨300, 35 * (m : Rat)⟩⟩ : Rect) ∈ tableRects ns := mem_rects.mpr ⟨c, r, m, h, rfl⟩

/-! ## Rows -/

theorem Tab.le {ns : List Nat} {c r m : Nat} (h : Tab ns c r m) : m ≤ tallest ns r := by
  obtain ⟨hc, h⟩ := h
  unfold tallest
  have : c = 0 ∨ c = 1 ∨ c = 2 := by omega
  rcases this with rfl | rfl | rfl
  · rw [show 3 * r + 0 = 3 * r from rfl] at h
    rw [h]; simp
  · rw [h]; simp
  · rw [h]; simp

theorem rowTop_ge (ns : List Nat) (r : Nat) : 50 ≤ rowTop ns r := by
  induction r with
  | zero => exact le_refl _
  | succ r ih =>
    have : (0 : Rat) ≤ tallest ns r := by exact_mod_cast Nat.zero_le _
    simp only [rowTop]
    linarith

/-- A row ends 80 above the next ones. -/
theorem rows_apart {ns : List Nat} {r r' : Nat} (h : r < r') : rowTop ns r + 35 * (tallest ns r : Rat) + 80 ≤ rowTop ns r' := by
  induction r' with
  | zero => omega
  | succ r' ih =>
    rcases Nat.lt_or_ge r r' with hlt | hge
    · have := ih hlt
      have h0 : (0 : Rat) ≤ tallest ns r' := by exact_mod_cast Nat.zero_le _
      simp only [rowTop]
      linarith
    · have : r = r' := by omega
      subst this
      exact le_refl _

theorem Tab.apart {ns : List Nat} {c r m r' : Nat} (h : Tab ns c r m) (hr : r < r') : rowTop ns r + 35 * (m : Rat) + 80 ≤ rowTop ns r' := by
  have h1 := rows_apart (ns := ns) hr
  have h2 : (m : Rat) ≤ tallest ns r := by exact_mod_cast h.le
  linarith

/-- What is close to a height within a table is in the same row. -/
theorem same_row {ns : List Nat} {c r m c' r' m' : Nat} (h : Tab ns c r m) (h' : Tab ns c' r' m') {y : Rat} (h1 : rowTop ns r < y)
    (h2 : y < rowTop ns r + 35 * (m : Rat)) (h3 : rowTop ns r' - 80 ≤ y) (h4 : y ≤ rowTop ns r' + 35 * (m' : Rat) + 80) : r' = r := by
  rcases Nat.lt_trichotomy r r' with hlt | rfl | hlt
  · have := h.apart hlt
    linarith
  · rfl
  · have := h'.apart hlt
    linarith

/-! ## Ends -/

/-- What is known about an end of a relation. -/
def EndOf (ns : List Nat) (S : List (Point × Orientation)) (p : Point) (o : Orientation) : Prop :=
  ∃ (c r m : Nat), Tab ns c r m ∧
    match o with
    | .left => p.x = 50 + 380 * (c : Rat) ∧ rowTop ns r < p.y ∧ p.y < rowTop ns r + 35 * (m : Rat) ∧ (⟨350 + 380 * (c : Rat), p.y⟩, .right) ∈ S
    | .right => p.x = 350 + 380 * (c : Rat) ∧ rowTop ns r < p.y ∧ p.y < rowTop ns r + 35 * (m : Rat) ∧ (⟨50 + 380 * (c : Rat), p.y⟩, .left) ∈ S
    | .up => p = ⟨200 + 380 * (c : Rat), rowTop ns r⟩ ∧ (⟨200 + 380 * (c : Rat), rowTop ns r + 35 * (m : Rat)⟩, .down) ∈ S
    | .down => p = ⟨200 + 380 * (c : Rat), rowTop ns r + 35 * (m : Rat)⟩

theorem endsOf_cases {ns : List Nat} (hpos : ∀ (k n : Nat), ns[k]? = some n → 1 ≤ n) {r : NodeRef}
    (hr : ValidRef ns r) {p : Point} {o : Orientation} (h : (p, o) ∈ endsOf ns r) : EndOf ns (endsOf ns r) p o := by
  cases r with
  | table k =>
    obtain ⟨n, hn⟩ := hr
    have hp := hpos k n hn
    have hp' : (1 : Rat) ≤ n := by exact_mod_cast hp
    refine ⟨k % 3, k / 3, n, tab_of hn, ?_⟩
    simp only [endsOf, sidesOf, refRect, hn, Option.getD_some, tableRect, List.map_cons, List.map_nil,
      sideMiddle, List.mem_cons, List.not_mem_nil, or_false, Prod.mk.injEq] at h ⊢
    rcases h with ⟨rfl, rfl⟩ | ⟨rfl, rfl⟩ | ⟨rfl, rfl⟩ | ⟨rfl, rfl⟩ <;> simp
    · constructor <;> ring
    · exact ⟨by ring, hp⟩
    · ring
    · exact ⟨hp, by ring⟩
  | column k j =>
    obtain ⟨n, hn, hj⟩ := hr
    have hj' : (j : Rat) + 2 ≤ n := by exact_mod_cast hj
    have hj0 : (0 : Rat) ≤ j := by exact_mod_cast Nat.zero_le j
    refine ⟨k % 3, k / 3, n, tab_of hn, ?_⟩
    simp only [endsOf, sidesOf, refRect, lineRect, hn, Option.some.injEq] at h ⊢
    by_cases hl : n = j + 2
    · have hl' : (n : Rat) = j + 2 := by exact_mod_cast hl
      simp only [hl, if_true, List.map_cons, List.map_nil, sideMiddle, List.mem_cons, List.not_mem_nil, or_false, Prod.mk.injEq] at h ⊢
      rcases h with ⟨rfl, rfl⟩ | ⟨rfl, rfl⟩ | ⟨rfl, rfl⟩ <;> simp
      · refine ⟨by ring, by linarith, by linarith⟩
      · constructor <;> ring
      · refine ⟨by linarith, by linarith, by ring⟩
    · simp only [hl, if_false, List.map_cons, List.map_nil, sideMiddle, List.mem_cons, List.not_mem_nil, or_false, Prod.mk.injEq] at h ⊢
      rcases h with ⟨rfl, rfl⟩ | ⟨rfl, rfl⟩ <;> simp
      · refine ⟨by ring, by linarith, by linarith⟩
      · refine ⟨by linarith, by linarith, by ring⟩

theorem EndOf.mono {ns : List Nat} {S S' : List (Point × Orientation)} (hS : ∀ x ∈ S, x ∈ S') {p : Point} {o : Orientation}
    (h : EndOf ns S p o) : EndOf ns S' p o := by
  obtain ⟨c, r, n, hn, h⟩ := h
  refine ⟨c, r, n, hn, ?_⟩
  cases o
  · exact ⟨h.1, hS _ h.2⟩
  · exact h
  · exact ⟨h.1, h.2.1, h.2.2.1, hS _ h.2.2.2⟩
  · exact ⟨h.1, h.2.1, h.2.2.1, hS _ h.2.2.2⟩

theorem allEnds_cases {ns : List Nat} {cs : List (NodeRef × NodeRef)} (h : Ok ns cs) {p : Point} {o : Orientation}
    (hp : (p, o) ∈ allEnds ns cs) : EndOf ns (allEnds ns cs) p o := by
  simp only [allEnds, List.mem_flatMap, List.mem_append] at hp
  obtain ⟨c, hc, hp | hp⟩ := hp
  · exact (endsOf_cases h.pos (h.valid c hc).1 hp).mono fun x hx => by
      simp only [allEnds, List.mem_flatMap, List.mem_append]; exact ⟨c, hc, .inl hx⟩
  · exact (endsOf_cases h.pos (h.valid c hc).2 hp).mono fun x hx => by
      simp only [allEnds, List.mem_flatMap, List.mem_append]; exact ⟨c, hc, .inr hx⟩

/-! ## Corners and places -/

theorem mem_corners {ns : List Nat} {p : Point} :
    p ∈ corners ns ↔ ∃ (c r m : Nat), Tab ns c r m ∧ (p.x = 10 + 380 * (c : Rat) ∨ p.x = 390 + 380 * (c : Rat)) ∧
      (p.y = rowTop ns r - 40 ∨ p.y = rowTop ns r + 35 * (m : Rat) + 40) := by
  simp only [corners, List.mem_flatMap, mem_rects]
  constructor
  · rintro ⟨R, ⟨c, r, m, hn, rfl⟩, hp⟩
    refine ⟨c, r, m, hn, ?_⟩
    simp only [frameCorners, List.mem_cons, List.not_mem_nil, or_false] at hp
    rcases hp with rfl | rfl | rfl | rfl <;> simp only
    · exact ⟨.inl (by ring), .inl trivial⟩
    · exact ⟨.inr (by ring), .inl trivial⟩
    · exact ⟨.inr (by ring), .inr trivial⟩
    · exact ⟨.inl (by ring), .inr trivial⟩
  · rintro ⟨c, r, m, hn, hx, hy⟩
    refine ⟨_, ⟨c, r, m, hn, rfl⟩, ?_⟩
    obtain ⟨x, y⟩ := p
    simp only [frameCorners, List.mem_cons, List.not_mem_nil, or_false, Point.mk.injEq] at hx hy ⊢
    rcases hx with rfl | rfl <;> rcases hy with rfl | rfl
    · exact .inl ⟨by ring, rfl⟩
    · exact .inr (.inr (.inr ⟨by ring, rfl⟩))
    · exact .inr (.inl ⟨by ring, rfl⟩)
    · exact .inr (.inr (.inl ⟨by ring, rfl⟩))

/-- A corner of a frame. -/
def CornerPlace (ns : List Nat) (n : RouteNodeData) : Prop :=
  n.orientation = none ∧ ∃ (c r m : Nat), Tab ns c r m ∧
    (n.location.x = 10 + 380 * (c : Rat) ∨ n.location.x = 390 + 380 * (c : Rat)) ∧
    (n.location.y = rowTop ns r - 40 ∨ n.location.y = rowTop ns r + 35 * (m : Rat) + 40)

/-- A crossing on the way to the left or to the right from an end. -/
def SidePlace (ns : List Nat) (S : List (Point × Orientation)) (n : RouteNodeData) : Prop :=
  n.orientation = none ∧ ∃ (c r m : Nat), Tab ns c r m ∧ rowTop ns r < n.location.y ∧ n.location.y < rowTop ns r + 35 * (m : Rat) ∧
    HasSides S c n.location.y ∧ ∃ j ∈ corners ns, n.location.x = j.x ∧
      (Sees ns ⟨50 + 380 * (c : Rat), n.location.y⟩ .left j ∨ Sees ns ⟨350 + 380 * (c : Rat), n.location.y⟩ .right j)

/-- A crossing above or below an end. -/
def MiddlePlace (ns : List Nat) (S : List (Point × Orientation)) (n : RouteNodeData) : Prop :=
  n.orientation = none ∧ ¬ CloseToTable ns n.location ∧ ∃ (c r m : Nat), Tab ns c r m ∧ n.location.x = 200 + 380 * (c : Rat) ∧
    (∃ j ∈ corners ns, n.location.y = j.y) ∧
    ((⟨200 + 380 * (c : Rat), rowTop ns r⟩, .up) ∈ S ∧ n.location.y ≤ rowTop ns r ∨
      (⟨200 + 380 * (c : Rat), rowTop ns r + 35 * (m : Rat)⟩, .down) ∈ S ∧ rowTop ns r + 35 * (m : Rat) ≤ n.location.y)

/-- An end of a relation. -/
def EndPlace (ns : List Nat) (S : List (Point × Orientation)) (n : RouteNodeData) : Prop :=
  ∃ (c r m : Nat), Tab ns c r m ∧
    ((n.orientation = some .left ∧ n.location.x = 50 + 380 * (c : Rat) ∧ rowTop ns r < n.location.y ∧
        n.location.y < rowTop ns r + 35 * (m : Rat) ∧ HasSides S c n.location.y) ∨
      (n.orientation = some .right ∧ n.location.x = 350 + 380 * (c : Rat) ∧ rowTop ns r < n.location.y ∧
        n.location.y < rowTop ns r + 35 * (m : Rat) ∧ HasSides S c n.location.y) ∨
      (n.orientation = some .up ∧ n.location = ⟨200 + 380 * (c : Rat), rowTop ns r⟩ ∧
        (⟨200 + 380 * (c : Rat), rowTop ns r⟩, .up) ∈ S ∧ (⟨200 + 380 * (c : Rat), rowTop ns r + 35 * (m : Rat)⟩, .down) ∈ S) ∨
      (n.orientation = some .down ∧ n.location = ⟨200 + 380 * (c : Rat), rowTop ns r + 35 * (m : Rat)⟩ ∧
        (⟨200 + 380 * (c : Rat), rowTop ns r + 35 * (m : Rat)⟩, .down) ∈ S))

theorem place_cases {ns : List Nat} {cs : List (NodeRef × NodeRef)} (h : Ok ns cs) {n : RouteNodeData}
    (hn : n ∈ places ns (allEnds ns cs)) : CornerPlace ns n ∨ SidePlace ns (allEnds ns cs) n ∨
      MiddlePlace ns (allEnds ns cs) n ∨ EndPlace ns (allEnds ns cs) n := by
  obtain ⟨⟨x, y⟩, on⟩ := n
  rcases mem_places.mp hn with ⟨ho, hc⟩ | ⟨o, ho, hc⟩
  · simp only at ho hc
    subst ho
    obtain ⟨hclose, hc | ⟨e, o, j, hc, hj, hs, hp⟩⟩ := mem_crossings.mp hc
    · exact .inl ⟨rfl, mem_corners.mp hc⟩
    · obtain ⟨ex, ey⟩ := e
      obtain ⟨c, r, m, hm, he⟩ := allEnds_cases h hc
      cases o
      · -- up
        obtain ⟨he1, he2⟩ := he
        simp only [crossingAt, Point.mk.injEq] at hp he1
        obtain ⟨rfl, rfl⟩ := hp
        obtain ⟨rfl, rfl⟩ := he1
        exact .inr (.inr (.inl ⟨rfl, hclose, c, r, m, hm, rfl, ⟨j, hj, rfl⟩, .inl ⟨hc, hs⟩⟩))
      · -- down
        simp only [crossingAt, Point.mk.injEq] at hp he
        obtain ⟨rfl, rfl⟩ := hp
        obtain ⟨rfl, rfl⟩ := he
        exact .inr (.inr (.inl ⟨rfl, hclose, c, r, m, hm, rfl, ⟨j, hj, rfl⟩, .inr ⟨hc, hs⟩⟩))
      · -- left
        obtain ⟨he1, he2, he3, he4⟩ := he
        simp only [crossingAt, Point.mk.injEq] at hp he1 he2 he3 he4
        obtain ⟨rfl, rfl⟩ := hp
        subst he1
        exact .inr (.inl ⟨rfl, c, r, m, hm, he2, he3, ⟨hc, he4⟩, j, hj, rfl, .inl hs⟩)
      · -- right
        obtain ⟨he1, he2, he3, he4⟩ := he
        simp only [crossingAt, Point.mk.injEq] at hp he1 he2 he3 he4
        obtain ⟨rfl, rfl⟩ := hp
        subst he1
        exact .inr (.inl ⟨rfl, c, r, m, hm, he2, he3, ⟨he4, hc⟩, j, hj, rfl, .inr hs⟩)
  · simp only at ho hc
    subst ho
    obtain ⟨c, r, m, hm, he⟩ := allEnds_cases h hc
    refine .inr (.inr (.inr ⟨c, r, m, hm, ?_⟩))
    cases o
    · obtain ⟨he1, he2⟩ := he
      simp only [Point.mk.injEq] at he1
      obtain ⟨rfl, rfl⟩ := he1
      exact .inr (.inr (.inl ⟨rfl, rfl, hc, he2⟩))
    · simp only [Point.mk.injEq] at he
      obtain ⟨rfl, rfl⟩ := he
      exact .inr (.inr (.inr ⟨rfl, rfl, hc⟩))
    · obtain ⟨he1, he2, he3, he4⟩ := he
      simp only at he1
      subst he1
      exact .inl ⟨rfl, rfl, he2, he3, hc, he4⟩
    · obtain ⟨he1, he2, he3, he4⟩ := he
      simp only at he1
      subst he1
      exact .inr (.inl ⟨rfl, rfl, he2, he3, he4, hc⟩)

theorem street_x {ns : List Nat} {j : Point} (hj : j ∈ corners ns) :
    ∃ i : Nat, i ≤ 3 ∧ j.x = 10 + 380 * (i : Rat) := by
  obtain ⟨c, r, m, hm, hx, -⟩ := mem_corners.mp hj
  have hc := hm.1
  rcases hx with hx | hx
  · exact ⟨c, by omega, hx⟩
  · refine ⟨c + 1, by omega, ?_⟩
    push_cast
    linarith

/-- Two tables whose widths have a common point are in the same column. -/
theorem same_col {c c' : Nat} {a x : Rat} (h1 : 50 ≤ a) (h2 : a ≤ 350) (hx : x = a + 380 * (c' : Rat))
    (hx1 : 50 + 380 * (c : Rat) ≤ x) (hx2 : x ≤ 350 + 380 * (c : Rat)) : c' = c := by
  by_contra hne
  rcases Nat.lt_or_gt_of_ne hne with hlt | hlt
  · have : (c' : Rat) + 1 ≤ c := by exact_mod_cast hlt
    linarith
  · have : (c : Rat) + 1 ≤ c' := by exact_mod_cast hlt
    linarith

/-- A place at the height of the inside of a table and not beside it is one of its ends. -/
theorem inside_place {ns : List Nat} {cs : List (NodeRef × NodeRef)} (h : Ok ns cs) {n : RouteNodeData}
    (hn : n ∈ places ns (allEnds ns cs)) {c r m : Nat} (hm : Tab ns c r m) (hy1 : rowTop ns r < n.location.y)
    (hy2 : n.location.y < rowTop ns r + 35 * (m : Rat)) (hx1 : 50 + 380 * (c : Rat) ≤ n.location.x)
    (hx2 : n.location.x ≤ 350 + 380 * (c : Rat)) :
    (n.orientation = some .left ∧ n.location.x = 50 + 380 * (c : Rat) ∨
      n.orientation = some .right ∧ n.location.x = 350 + 380 * (c : Rat)) ∧ HasSides (allEnds ns cs) c n.location.y := by
  rcases place_cases h hn with ⟨-, c', r', m', hm', hx, -⟩ | ⟨-, c', r', m', hm', -, -, -, j, hj, hx, -⟩ |
      ⟨-, hclose, c', r', m', hm', hx, -⟩ | ⟨c', r', m', hm', he⟩
  · exfalso
    rcases hx with hx | hx
    · rcases street_off (k := c) hx with h1 | h1 <;> linarith
    · rcases street_off (i := c' + 1) (k := c) (x := n.location.x) (by push_cast; linarith) with h1 | h1 <;> linarith
  · exfalso
    obtain ⟨i, -, hi⟩ := street_x hj
    rcases street_off (k := c) (hx.trans hi) with h1 | h1 <;> linarith
  · exfalso
    apply hclose
    refine ⟨_, hm.mem, ?_⟩
    simp only
    refine ⟨by linarith, by linarith, by linarith, by linarith⟩
  · have m0 : (0 : Rat) ≤ m' := by exact_mod_cast Nat.zero_le m'
    rcases he with ⟨ho, hx, -, -, hs⟩ | ⟨ho, hx, -, -, hs⟩ | ⟨-, hl, -⟩ | ⟨-, hl, -⟩
    · obtain rfl := same_col (le_refl _) (by norm_num) hx hx1 hx2
      exact ⟨.inl ⟨ho, hx⟩, hs⟩
    · obtain rfl := same_col (by norm_num) (le_refl _) hx hx1 hx2
      exact ⟨.inr ⟨ho, hx⟩, hs⟩
    · exfalso
      rw [hl] at hy1 hy2
      simp only at hy1 hy2
      obtain rfl := same_row hm hm' hy1 hy2 (by linarith) (by linarith)
      exact absurd hy1 (lt_irrefl _)
    · exfalso
      obtain rfl := same_col (c' := c') (a := 200) (by norm_num) (by norm_num) (by rw [hl]) hx1 hx2
      rw [hl] at hy1 hy2
      simp only at hy1 hy2
      obtain rfl := same_row hm hm' hy1 hy2 (by linarith) (by linarith)
      obtain rfl := hm.unique hm'
      exact absurd hy2 (lt_irrefl _)

theorem atHeight {ns : List Nat} {r m : Nat} {x w : Rat} {y : Rat} (hy1 : rowTop ns r < y) (hy2 : y < rowTop ns r + 35 * (m : Rat)) :
    AtHeightOf ⟨⟨x, rowTop ns r⟩, ⟨w, 35 * (m : Rat)⟩⟩ y :=
  ⟨by simp only; linarith, by simp only; linarith⟩

/-- What comes from the left to a table of the first column, at the height of its inside, comes to one of its ends. -/
theorem first_end {ns : List Nat} {cs : List (NodeRef × NodeRef)} (h : Ok ns cs) {n : RouteNodeData}
    (hn : n ∈ places ns (allEnds ns cs)) (ho : Open .right n) {r m : Nat} (hm : Tab ns 0 r m) (hy1 : rowTop ns r < n.location.y)
    (hy2 : n.location.y < rowTop ns r + 35 * (m : Rat)) (hx : n.location.x < 350) :
    HasSides (allEnds ns cs) 0 n.location.y ∧ n.location.x < 50 := by
  by_cases hx1 : 50 ≤ n.location.x
  · exfalso
    rcases inside_place h hn hm hy1 hy2 (by simpa using hx1) (by simpa using hx.le) with ⟨⟨h1, -⟩ | ⟨-, h1⟩, -⟩
    · exact not_open ho h1 (by simp)
    · simp at h1; linarith
  · push Not at hx1
    refine ⟨?_, hx1⟩
    have pos : ∀ k : Nat, (0 : Rat) ≤ k := fun k => by exact_mod_cast Nat.zero_le k
    rcases place_cases h hn with ⟨-, c', r', m', hm', hx', hy'⟩ | ⟨-, c', r', m', hm', y1, y2, hs, j, hj, hx', hsee⟩ |
        ⟨-, -, c', r', m', hm', hx', -⟩ | ⟨c', r', m', hm', he⟩
    · exfalso
      have hk := pos c'
      have hm0 := pos m'
      obtain rfl := same_row hm hm' hy1 hy2 (by rcases hy' with hy' | hy' <;> linarith) (by rcases hy' with hy' | hy' <;> linarith)
      rcases hx' with hx' | hx'
      · have : c' = 0 := by
          by_contra hne
          have : (1 : Rat) ≤ c' := by exact_mod_cast Nat.one_le_iff_ne_zero.mpr hne
          linarith
        subst this
        obtain rfl := hm.unique hm'
        rcases hy' with hy' | hy' <;> linarith
      · linarith
    · by_cases hk : c' = 0
      · subst hk; exact hs
      · exfalso
        have hk1 : (1 : Rat) ≤ c' := by exact_mod_cast Nat.one_le_iff_ne_zero.mpr hk
        rcases hsee with hsee | hsee
        · have := hsee.2 _ hm.mem (atHeight hy1 hy2)
          simp only [Nat.cast_zero] at this
          have := this (by linarith)
          linarith
        · have := hsee.1
          simp only at this
          linarith
    · exfalso
      have hk := pos c'
      linarith
    · exfalso
      have hk := pos c'
      rcases he with ⟨-, hx', -⟩ | ⟨-, hx', -⟩ | ⟨-, hl, -⟩ | ⟨-, hl, -⟩
      · linarith
      · linarith
      · rw [hl] at hx1; simp only at hx1; linarith
      · rw [hl] at hx1; simp only at hx1; linarith

/-- What comes from the right to a table of the last column, at the height of its inside, comes to one of its ends. -/
theorem last_end {ns : List Nat} {cs : List (NodeRef × NodeRef)} (h : Ok ns cs) {n : RouteNodeData}
    (hn : n ∈ places ns (allEnds ns cs)) (ho : Open .left n) {r m : Nat} (hm : Tab ns 2 r m)
    (hy1 : rowTop ns r < n.location.y) (hy2 : n.location.y < rowTop ns r + 35 * (m : Rat)) (hx : 810 < n.location.x) :
    HasSides (allEnds ns cs) 2 n.location.y ∧ 1110 < n.location.x := by
  by_cases hx1 : n.location.x ≤ 1110
  · exfalso
    rcases inside_place h hn hm hy1 hy2 (by push_cast; linarith) (by push_cast; linarith) with ⟨⟨-, h1⟩ | ⟨h1, -⟩, -⟩
    · push_cast at h1; linarith
    · exact not_open ho h1 (by simp)
  · push Not at hx1
    refine ⟨?_, hx1⟩
    have le : ∀ {c' r' m' : Nat}, Tab ns c' r' m' → (c' : Rat) ≤ 2 := fun {c' r' m'} hk' => by
      have := hk'.1
      exact_mod_cast (by omega : c' ≤ 2)
    rcases place_cases h hn with ⟨-, c', r', m', hm', hx', hy'⟩ | ⟨-, c', r', m', hm', y1, y2, hs, j, hj, hx', hsee⟩ |
        ⟨-, -, c', r', m', hm', hx', -⟩ | ⟨c', r', m', hm', he⟩
    · exfalso
      have hk := le hm'
      have hm0 : (0 : Rat) ≤ m' := by exact_mod_cast Nat.zero_le m'
      obtain rfl := same_row hm hm' hy1 hy2 (by rcases hy' with hy' | hy' <;> linarith) (by rcases hy' with hy' | hy' <;> linarith)
      rcases hx' with hx' | hx'
      · linarith
      · have : c' = 2 := by
          by_contra hne
          have h1 := hm'.1
          have : (c' : Rat) ≤ 1 := by exact_mod_cast (by omega : c' ≤ 1)
          linarith
        subst this
        obtain rfl := hm.unique hm'
        rcases hy' with hy' | hy' <;> linarith
    · by_cases hk : c' = 2
      · subst hk; exact hs
      · exfalso
        have h1 := hm'.1
        have hk1 : (c' : Rat) ≤ 1 := by exact_mod_cast (by omega : c' ≤ 1)
        rcases hsee with hsee | hsee
        · have := hsee.1
          simp only at this
          linarith
        · have := hsee.2 _ hm.mem (atHeight hy1 hy2)
          simp only at this
          push_cast at this
          have := this (by linarith)
          linarith
    · exfalso
      have hk := le hm'
      linarith
    · exfalso
      have hk := le hm'
      rcases he with ⟨-, hx', -⟩ | ⟨-, hx', -⟩ | ⟨-, hl, -⟩ | ⟨-, hl, -⟩
      · linarith
      · linarith
      · rw [hl] at hx1; simp only at hx1; linarith
      · rw [hl] at hx1; simp only at hx1; linarith

/-! ## Ways through tables -/

/-- Between its ends a horizontal way passes the inside of a table. -/
def PassesAt (ns : List Nat) (c r w : Nat) (x x' y : Rat) : Prop :=
  x < 350 + 380 * (c : Rat) ∧ 50 + 380 * (c : Rat) < x' ∧ rowTop ns r < y ∧ y < rowTop ns r + 35 * (w : Rat)

theorem crosses_right {ns : List Nat} {c r w : Nat} (hk : Tab ns c r w) {p q : Point} (ht : Towards .right p q)
    (h : Crosses (tableRect ns (3 * r + c) w) p q) : PassesAt ns c r w p.x q.x p.y := by
  obtain ⟨t, t0, t1, h1, h2, h3, h4⟩ := h
  obtain ⟨e, hlt⟩ := ht
  rw [hk.rect] at h1 h2 h3 h4
  simp only [lerp, e] at h1 h2 h3 h4
  have a1 : 0 ≤ t * (q.x - p.x) := mul_nonneg t0 (by linarith)
  have a2 : 0 ≤ (1 - t) * (q.x - p.x) := mul_nonneg (by linarith) (by linarith)
  refine ⟨by linarith, by linarith, by linarith, by linarith⟩

theorem crosses_left {ns : List Nat} {c r w : Nat} (hk : Tab ns c r w) {p q : Point} (ht : Towards .left p q)
    (h : Crosses (tableRect ns (3 * r + c) w) p q) : PassesAt ns c r w q.x p.x p.y := by
  obtain ⟨t, t0, t1, h1, h2, h3, h4⟩ := h
  obtain ⟨e, hlt⟩ := ht
  rw [hk.rect] at h1 h2 h3 h4
  simp only [lerp, e] at h1 h2 h3 h4
  have a1 : 0 ≤ t * (p.x - q.x) := mul_nonneg t0 (by linarith)
  have a2 : 0 ≤ (1 - t) * (p.x - q.x) := mul_nonneg (by linarith) (by linarith)
  refine ⟨by linarith, by linarith, by linarith, by linarith⟩

/-- Between its ends a vertical way passes the inside of a table. -/
def PassesDown (ns : List Nat) (c r w : Nat) (x y y' : Rat) : Prop :=
  50 + 380 * (c : Rat) < x ∧ x < 350 + 380 * (c : Rat) ∧ y < rowTop ns r + 35 * (w : Rat) ∧ rowTop ns r < y'

theorem crosses_down {ns : List Nat} {c r w : Nat} (hk : Tab ns c r w) {p q : Point} (ht : Towards .down p q)
    (h : Crosses (tableRect ns (3 * r + c) w) p q) : PassesDown ns c r w p.x p.y q.y := by
  obtain ⟨t, t0, t1, h1, h2, h3, h4⟩ := h
  obtain ⟨e, hlt⟩ := ht
  rw [hk.rect] at h1 h2 h3 h4
  simp only [lerp, e] at h1 h2 h3 h4
  have a1 : 0 ≤ t * (q.y - p.y) := mul_nonneg t0 (by linarith)
  have a2 : 0 ≤ (1 - t) * (q.y - p.y) := mul_nonneg (by linarith) (by linarith)
  refine ⟨by linarith, by linarith, by linarith, by linarith⟩

theorem crosses_up {ns : List Nat} {c r w : Nat} (hk : Tab ns c r w) {p q : Point} (ht : Towards .up p q)
    (h : Crosses (tableRect ns (3 * r + c) w) p q) : PassesDown ns c r w p.x q.y p.y := by
  obtain ⟨t, t0, t1, h1, h2, h3, h4⟩ := h
  obtain ⟨e, hlt⟩ := ht
  rw [hk.rect] at h1 h2 h3 h4
  simp only [lerp, e] at h1 h2 h3 h4
  have a1 : 0 ≤ t * (p.y - q.y) := mul_nonneg t0 (by linarith)
  have a2 : 0 ≤ (1 - t) * (p.y - q.y) := mul_nonneg (by linarith) (by linarith)
  refine ⟨by linarith, by linarith, by linarith, by linarith⟩

theorem meets_passes {ns : List Nat} {c r w : Nat} {p q : Point} (hy : q.y = p.y) (hx : p.x < q.x)
    (h : Meets (inside ⟨⟨50 + 380 * (c : Rat), rowTop ns r⟩, ⟨300, 35 * (w : Rat)⟩⟩) p q) : PassesAt ns c r w p.x q.x p.y := by
  obtain ⟨t, t0, t1, h1, h2, h3, h4⟩ := h
  simp only [inside, lerp, hy] at h1 h2 h3 h4
  have a1 : 0 ≤ t * (q.x - p.x) := mul_nonneg t0 (by linarith)
  have a2 : 0 ≤ (1 - t) * (q.x - p.x) := mul_nonneg (by linarith) (by linarith)
  refine ⟨by linarith, by linarith, by linarith, by linarith⟩

theorem free_right {ns : List Nat} {p q : Point} (hy : q.y = p.y) (hx : p.x < q.x)
    (hf : ∀ c r w, Tab ns c r w → ¬ PassesAt ns c r w p.x q.x p.y) : ¬ Obstructed ns .right p q := by
  rintro ⟨-, R, hR, hm⟩
  obtain ⟨c, r, w, hk, rfl⟩ := mem_rects.mp hR
  exact hf c r w hk (meets_passes hy hx hm)

theorem free_left {ns : List Nat} {p q : Point} (hy : q.y = p.y) (hx : q.x < p.x)
    (hf : ∀ c r w, Tab ns c r w → ¬ PassesAt ns c r w q.x p.x q.y) : ¬ Obstructed ns .left p q := by
  rintro ⟨-, R, hR, hm⟩
  obtain ⟨c, r, w, hk, rfl⟩ := mem_rects.mp hR
  exact hf c r w hk (meets_passes hy.symm hx ((meets_swap _ _ _).mp hm))

/-- A road to the right does not pass over a place from which nothing is in the way. -/
theorem not_over_right {ns : List Nat} {pl : List RouteNodeData} {a b : Nat} {n m p : RouteNodeData}
    (hr : NeighbourIn ns pl .right a b) (hn : pl[a]? = some n) (hm : pl[b]? = some m) (hp : p ∈ pl) (ho : Open .left p)
    (hy : p.location.y = n.location.y) (h1 : n.location.x < p.location.x) (h2 : p.location.x < m.location.x)
    (hf : ∀ c r w, Tab ns c r w → ¬ PassesAt ns c r w n.location.x p.location.x n.location.y) : False := by
  obtain ⟨ht, ho1, ho2⟩ := neighbour_ahead hr hn hm
  have hle := neighbour_le hr hn hm hp ⟨⟨hy, h1⟩, ho1, ho⟩ (free_right hy h1 hf)
  simp only [distance, ht.1, hy, sub_self, abs_zero] at hle
  rw [abs_of_neg (by linarith), abs_of_neg (by linarith)] at hle
  linarith

theorem not_over_left {ns : List Nat} {pl : List RouteNodeData} {a b : Nat} {n m p : RouteNodeData}
    (hr : NeighbourIn ns pl .left a b) (hn : pl[a]? = some n) (hm : pl[b]? = some m) (hp : p ∈ pl) (ho : Open .right p)
    (hy : p.location.y = n.location.y) (h1 : p.location.x < n.location.x) (h2 : m.location.x < p.location.x)
    (hf : ∀ c r w, Tab ns c r w → ¬ PassesAt ns c r w p.location.x n.location.x p.location.y) : False := by
  obtain ⟨ht, ho1, ho2⟩ := neighbour_ahead hr hn hm
  have hle := neighbour_le hr hn hm hp ⟨⟨hy, h1⟩, ho1, ho⟩ (free_left hy h1 hf)
  simp only [distance, ht.1, hy, sub_self, abs_zero] at hle
  rw [abs_of_pos (by linarith), abs_of_pos (by linarith)] at hle
  linarith

/-- Ways that pass tables at the same height pass tables of the same row. -/
theorem passes_row {ns : List Nat} {c r w c' r' w' : Nat} (h : Tab ns c r w) (h' : Tab ns c' r' w') {x x' z z' y : Rat}
    (hp : PassesAt ns c r w x x' y) (hp' : PassesAt ns c' r' w' z z' y) : r' = r :=
  same_row h h' hp.2.2.1 hp.2.2.2 (by have := hp'.2.2.1; linarith) (by have := hp'.2.2.2; linarith)

/-- A road to the right does not pass a table with ends at its height, if that is the first table in its way. -/
theorem no_road_right {ns : List Nat} {cs : List (NodeRef × NodeRef)} {a b : Nat} {n m : RouteNodeData}
    (hr : NeighbourIn ns (places ns (allEnds ns cs)) .right a b) (hn : (places ns (allEnds ns cs))[a]? = some n)
    (hm : (places ns (allEnds ns cs))[b]? = some m) {c r w : Nat} (hk : Tab ns c r w)
    (hc : PassesAt ns c r w n.location.x m.location.x n.location.y)
    (hfirst : ∀ i v, Tab ns i r v → i < c → ¬ PassesAt ns i r v n.location.x m.location.x n.location.y)
    (hx : n.location.x < 50 + 380 * (c : Rat)) (hs : HasSides (allEnds ns cs) c n.location.y) : False := by
  have c2 := hc.2.1
  refine not_over_right hr hn hm (mem_place_end hs.1) (.inr rfl) rfl hx c2 ?_
  intro c' r' w' hk' hp'
  obtain rfl := passes_row hk hk' hc hp'
  obtain ⟨d1, d2, d3, d4⟩ := hp'
  simp only at d2
  have hlt : c' < c := by
    by_contra hge
    have : (c : Rat) ≤ c' := by exact_mod_cast Nat.le_of_not_lt hge
    linarith
  exact hfirst c' w' hk' hlt ⟨d1, by linarith, d3, d4⟩

/-- A road to the left does not pass a table with ends at its height, if that is the first table in its way. -/
theorem no_road_left {ns : List Nat} {cs : List (NodeRef × NodeRef)} {a b : Nat} {n m : RouteNodeData}
    (hr : NeighbourIn ns (places ns (allEnds ns cs)) .left a b) (hn : (places ns (allEnds ns cs))[a]? = some n)
    (hm : (places ns (allEnds ns cs))[b]? = some m) {c r w : Nat} (hk : Tab ns c r w)
    (hc : PassesAt ns c r w m.location.x n.location.x n.location.y)
    (hfirst : ∀ i v, Tab ns i r v → c < i → ¬ PassesAt ns i r v m.location.x n.location.x n.location.y)
    (hx : 350 + 380 * (c : Rat) < n.location.x) (hs : HasSides (allEnds ns cs) c n.location.y) : False := by
  have c1 := hc.1
  refine not_over_left hr hn hm (mem_place_end hs.2) (.inr rfl) rfl hx c1 ?_
  intro c' r' w' hk' hp'
  obtain rfl := passes_row hk hk' hc hp'
  obtain ⟨d1, d2, d3, d4⟩ := hp'
  simp only at d1 d3 d4
  have hlt : c < c' := by
    by_contra hge
    have : (c' : Rat) ≤ c := by exact_mod_cast Nat.le_of_not_lt hge
    linarith
  exact hfirst c' w' hk' hlt ⟨by linarith, d2, d3, d4⟩

/-! ## Positions of places -/

/-- A place on a street that goes down is not close to a table. -/
theorem street_not_close {ns : List Nat} (i : Nat) (x y : Rat) (hx : x = 10 + 380 * (i : Rat)) : ¬ CloseToTable ns ⟨x, y⟩ := by
  rintro ⟨R, hR, h1, h2, -⟩
  obtain ⟨c, r, m, hm, rfl⟩ := mem_rects.mp hR
  simp only at h1 h2
  rcases street_off (k := c) hx with h3 | h3 <;> linarith

/-- Heights are multiples of two and a half. -/
def Step (y : Rat) : Prop := ∃ i : Int, y = 5 / 2 * (i : Rat)

theorem rowTop_step (ns : List Nat) (r : Nat) : Step (rowTop ns r) := by
  induction r with
  | zero => exact ⟨20, by norm_num [rowTop]⟩
  | succ r ih =>
    obtain ⟨i, hi⟩ := ih
    refine ⟨i + 14 * (tallest ns r : Int) + 32, ?_⟩
    simp only [rowTop, hi]
    push_cast
    ring

theorem ends_step {ns : List Nat} {cs : List (NodeRef × NodeRef)} (h : Ok ns cs) {p : Point} {o : Orientation}
    (hp : (p, o) ∈ allEnds ns cs) : Step p.y := by
  simp only [allEnds, List.mem_flatMap, List.mem_append] at hp
  have key : ∀ r, ValidRef ns r → (p, o) ∈ endsOf ns r → Step p.y := by
    intro r hr hpr
    simp only [endsOf, List.mem_map, Prod.mk.injEq] at hpr
    obtain ⟨o', -, rfl, rfl⟩ := hpr
    cases r with
    | table k =>
      obtain ⟨n, hn⟩ := hr
      obtain ⟨i, hi⟩ := rowTop_step ns (k / 3)
      cases o' <;> simp only [refRect, hn, Option.getD_some, tableRect, sideMiddle]
      · exact ⟨i, hi⟩
      · exact ⟨i + 14 * (n : Int), by rw [hi]; push_cast; ring⟩
      · exact ⟨i + 7 * (n : Int), by rw [hi]; push_cast; ring⟩
      · exact ⟨i + 7 * (n : Int), by rw [hi]; push_cast; ring⟩
    | column k j =>
      obtain ⟨n, hn, -⟩ := hr
      obtain ⟨i, hi⟩ := rowTop_step ns (k / 3)
      cases o' <;> simp only [refRect, lineRect, sideMiddle]
      · exact ⟨i + 14 * ((j : Int) + 1), by rw [hi]; push_cast; ring⟩
      · exact ⟨i + 14 * ((j : Int) + 1) + 14, by rw [hi]; push_cast; ring⟩
      · exact ⟨i + 14 * ((j : Int) + 1) + 7, by rw [hi]; push_cast; ring⟩
      · exact ⟨i + 14 * ((j : Int) + 1) + 7, by rw [hi]; push_cast; ring⟩
  obtain ⟨c, hc, hp | hp⟩ := hp
  · exact key _ (h.valid c hc).1 hp
  · exact key _ (h.valid c hc).2 hp

theorem corner_step {ns : List Nat} {j : Point} (hj : j ∈ corners ns) : Step j.y := by
  obtain ⟨c, r, m, -, -, hy⟩ := mem_corners.mp hj
  obtain ⟨i, hi⟩ := rowTop_step ns r
  rcases hy with hy | hy <;> rw [hy, hi]
  · exact ⟨i - 16, by push_cast; ring⟩
  · exact ⟨i + 14 * (m : Int) + 16, by push_cast; ring⟩

theorem place_step {ns : List Nat} {cs : List (NodeRef × NodeRef)} (h : Ok ns cs) {n : RouteNodeData}
    (hn : n ∈ places ns (allEnds ns cs)) : Step n.location.y := by
  rcases mem_places.mp hn with ⟨-, hc⟩ | ⟨o, -, hc⟩
  · obtain ⟨-, hc | ⟨e, o, j, hc, hj, hs, hp⟩⟩ := mem_crossings.mp hc
    · exact corner_step hc
    · rw [hp]
      cases o <;> simp only [crossingAt]
      · exact corner_step hj
      · exact corner_step hj
      · exact ends_step h hc
      · exact ends_step h hc
  · exact ends_step h hc

theorem Step.apart {y y' : Rat} (h : Step y) (h' : Step y') (hlt : y < y') : y + 5 / 2 ≤ y' := by
  obtain ⟨i, rfl⟩ := h
  obtain ⟨j, rfl⟩ := h'
  have h1 : (i : Rat) < j := by linarith
  have h2 : i + 1 ≤ j := by exact_mod_cast h1
  have h3 : (i : Rat) + 1 ≤ j := by exact_mod_cast h2
  linarith

theorem bottom_step (ns : List Nat) (r m : Nat) : Step (rowTop ns r + 35 * (m : Rat)) := by
  obtain ⟨i, hi⟩ := rowTop_step ns r
  exact ⟨i + 14 * (m : Int), by rw [hi]; push_cast; ring⟩

/-- The horizontal positions of places. -/
theorem place_x {ns : List Nat} {cs : List (NodeRef × NodeRef)} (h : Ok ns cs) {n : RouteNodeData}
    (hn : n ∈ places ns (allEnds ns cs)) :
    ∃ i : Nat, i ≤ 3 ∧ (n.orientation = none ∧ n.location.x = 10 + 380 * (i : Rat) ∨ i ≤ 2 ∧
      (n.orientation = some .left ∧ n.location.x = 50 + 380 * (i : Rat) ∨ n.location.x = 200 + 380 * (i : Rat) ∨
        n.orientation = some .right ∧ n.location.x = 350 + 380 * (i : Rat))) := by
  rcases place_cases h hn with ⟨ho, k', r', m', hm', hx, -⟩ | ⟨ho, k', r', m', hm', -, -, -, j, hj, hx, -⟩ | ⟨-, -, k', r', m', hm', hx, -⟩ |
      ⟨k', r', m', hm', he⟩
  · have hk := hm'.1
    rcases hx with hx | hx
    · exact ⟨k', by omega, .inl ⟨ho, hx⟩⟩
    · exact ⟨k' + 1, by omega, .inl ⟨ho, by push_cast; linarith⟩⟩
  · obtain ⟨i, hi, hx'⟩ := street_x hj
    exact ⟨i, hi, .inl ⟨ho, hx.trans hx'⟩⟩
  · have hk := hm'.1
    exact ⟨k', by omega, .inr ⟨by omega, .inr (.inl hx)⟩⟩
  · have hk := hm'.1
    refine ⟨k', by omega, .inr ⟨by omega, ?_⟩⟩
    rcases he with ⟨ho, hx, -⟩ | ⟨ho, hx, -⟩ | ⟨-, hl, -⟩ | ⟨-, hl, -⟩
    · exact .inl ⟨ho, hx⟩
    · exact .inr (.inr ⟨ho, hx⟩)
    · exact .inr (.inl (by rw [hl]))
    · exact .inr (.inl (by rw [hl]))

/-- A horizontal way between places that passes through a table is obstructed. -/
theorem passes_meets {ns : List Nat} {cs : List (NodeRef × NodeRef)} (h : Ok ns cs) {n m : RouteNodeData}
    (hn : n ∈ places ns (allEnds ns cs)) (hm : m ∈ places ns (allEnds ns cs)) (hy : m.location.y = n.location.y)
    (hx : n.location.x < m.location.x) {c r w : Nat}
    (hc : PassesAt ns c r w n.location.x m.location.x n.location.y) :
    Meets (inside ⟨⟨50 + 380 * (c : Rat), rowTop ns r⟩, ⟨300, 35 * (w : Rat)⟩⟩) n.location m.location := by
  obtain ⟨c1, c2, c3, c4⟩ := hc
  have y1 := (rowTop_step ns r).apart (place_step h hn) c3
  have y2 := (place_step h hn).apart (bottom_step ns r w) c4
  have step : ∀ {i : Nat} {a : Rat}, (a = 10 ∨ a = 50 ∨ a = 200 ∨ a = 350) → ∀ {x : Rat}, x = a + 380 * (i : Rat) →
      (x < 350 + 380 * (c : Rat) → x ≤ 200 + 380 * (c : Rat)) ∧ (50 + 380 * (c : Rat) < x → 200 + 380 * (c : Rat) ≤ x) := by
    intro i a ha x hx
    rcases Nat.lt_trichotomy i c with hik | hik | hik
    · have : (i : Rat) + 1 ≤ c := by exact_mod_cast hik
      constructor <;> intro hlt <;> rcases ha with rfl | rfl | rfl | rfl <;> linarith
    · subst hik
      constructor <;> intro hlt <;> rcases ha with rfl | rfl | rfl | rfl <;> linarith
    · have : (c : Rat) + 1 ≤ i := by exact_mod_cast hik
      constructor <;> intro hlt <;> rcases ha with rfl | rfl | rfl | rfl <;> linarith
  have b1 : n.location.x ≤ 200 + 380 * (c : Rat) := by
    obtain ⟨i, -, ⟨-, hi⟩ | ⟨-, ⟨-, hi⟩ | hi | ⟨-, hi⟩⟩⟩ := place_x h hn <;> exact (step (by norm_num) hi).1 c1
  have b2 : 200 + 380 * (c : Rat) ≤ m.location.x := by
    obtain ⟨i, -, ⟨-, hi⟩ | ⟨-, ⟨-, hi⟩ | hi | ⟨-, hi⟩⟩⟩ := place_x h hm <;> exact (step (by norm_num) hi).2 c2
  have hpos : 0 < m.location.x - n.location.x := by linarith
  refine ⟨(200 + 380 * (c : Rat) - n.location.x) / (m.location.x - n.location.x), div_nonneg (by linarith) hpos.le,
    (div_le_one hpos).mpr (by linarith), ?_⟩
  have e : n.location.x + (200 + 380 * (c : Rat) - n.location.x) / (m.location.x - n.location.x) * (m.location.x - n.location.x) =
      200 + 380 * (c : Rat) := by
    rw [div_mul_cancel₀ _ hpos.ne']; ring
  simp only [InRect, lerp, e, hy, sub_self, mul_zero, add_zero, inside]
  refine ⟨by linarith, by linarith, by linarith, by linarith⟩

end Seiren.Grid
