import Verif.Proofs.GridPlaces
/-! # Roads to the left and to the right, with any number of tables

The same as `Proofs/ThreeTables.lean`, for any number of rows: such a road passes only through the table in the second column
of its row, at a height at which that table has no ends. -/

namespace Seiren.Grid
open Spec

section
variable {ns : List Nat} {cs : List (NodeRef × NodeRef)}

local notation "ES" => allEnds ns cs
local notation "PL" => places ns (allEnds ns cs)

/-- The crossings at height `y` beside the table in column `c`. -/
def Base (ns : List Nat) (S : List (Point × Orientation)) (c : Nat) (y : Rat) : Prop :=
  HasSides S c y ∨ ((⟨10 + 380 * (c : Rat), y⟩ : Point) ∈ corners ns ∧ (⟨390 + 380 * (c : Rat), y⟩ : Point) ∈ corners ns)

/-- The height is one of a table in the second column, where it has no ends. -/
def Gap (ns : List Nat) (cs : List (NodeRef × NodeRef)) (y : Rat) : Prop :=
  ∃ r m, Tab ns 1 r m ∧ rowTop ns r < y ∧ y < rowTop ns r + 35 * (m : Rat) ∧ ¬ HasSides (allEnds ns cs) 1 y

theorem col3 {c : Nat} (h : c < 3) : c = 0 ∨ c = 1 ∨ c = 2 := by omega

theorem row_cases (h : Ok ns cs) {n : RouteNodeData} (hn : n ∈ PL) (hg : Gap ns cs n.location.y) :
    (n.orientation = none ∧ (n.location.x = 10 ∨ n.location.x = 390) ∧ Base ns ES 0 n.location.y) ∨
    (n.orientation = none ∧ (n.location.x = 770 ∨ n.location.x = 1150) ∧ Base ns ES 2 n.location.y) ∨
    (n.orientation = none ∧ n.location.x = 200) ∨
    (n.orientation = none ∧ n.location.x = 960) ∨
    ((n.orientation = some .left ∧ n.location.x = 50 ∨ n.orientation = some .right ∧ n.location.x = 350) ∧ HasSides ES 0 n.location.y) ∨
    ((n.orientation = some .left ∧ n.location.x = 810 ∨ n.orientation = some .right ∧ n.location.x = 1110) ∧ HasSides ES 2 n.location.y) ∨
    (n.orientation = some .down ∧ (n.location.x = 200 ∨ n.location.x = 960)) := by
  obtain ⟨r, m, hm, g1, g2, g3⟩ := hg
  have nn : ∀ w : Nat, (0 : Rat) ≤ w := fun w => by exact_mod_cast Nat.zero_le w
  rcases place_cases h hn with ⟨ho, k, r', w, hk, hx, hy⟩ | ⟨ho, k, r', w, hk, y1, y2, hs, j, hj, hx, hsee⟩ |
      ⟨ho, hclose, k, r', w, hk, hx, -⟩ | ⟨k, r', w, hk, he⟩
  · have hw := nn w
    obtain rfl := same_row hm hk g1 g2 (by rcases hy with hy | hy <;> linarith) (by rcases hy with hy | hy <;> linarith)
    have hb : Base ns ES k n.location.y := .inr ⟨mem_corners.mpr ⟨k, r', w, hk, .inl rfl, hy⟩, mem_corners.mpr ⟨k, r', w, hk, .inr rfl, hy⟩⟩
    rcases col3 hk.1 with rfl | rfl | rfl
    · refine .inl ⟨ho, ?_, hb⟩
      rcases hx with hx | hx <;> push_cast at hx <;> [left; right] <;> linarith
    · obtain rfl := hm.unique hk
      rcases hy with hy | hy <;> linarith
    · refine .inr (.inl ⟨ho, ?_, hb⟩)
      rcases hx with hx | hx <;> push_cast at hx <;> [left; right] <;> linarith
  · have hsee1 := atHeight (x := 50 + 380 * ((1 : Nat) : Rat)) (w := 300) g1 g2
    obtain ⟨i, hi, hjx⟩ := street_x hj
    have hi' : i = 0 ∨ i = 1 ∨ i = 2 ∨ i = 3 := by omega
    rcases col3 hk.1 with rfl | rfl | rfl
    · refine .inl ⟨ho, ?_, .inl hs⟩
      rcases hsee with ⟨e1, -⟩ | ⟨e1, e2⟩
      · simp only at e1
        rcases hi' with rfl | rfl | rfl | rfl <;> push_cast at hjx e1
        · left; linarith
        · linarith
        · linarith
        · linarith
      · have e2 := e2 _ hm.mem hsee1
        simp only at e1 e2
        push_cast at e1 e2
        have e2 := e2 (by norm_num)
        rcases hi' with rfl | rfl | rfl | rfl <;> push_cast at hjx
        · linarith
        · right; linarith
        · linarith
        · linarith
    · exact absurd hs g3
    · refine .inr (.inl ⟨ho, ?_, .inl hs⟩)
      rcases hsee with ⟨e1, e2⟩ | ⟨e1, -⟩
      · have e2 := e2 _ hm.mem hsee1
        simp only at e1 e2
        push_cast at e1 e2
        have e2 := e2 (by norm_num)
        rcases hi' with rfl | rfl | rfl | rfl <;> push_cast at hjx
        · linarith
        · linarith
        · left; linarith
        · linarith
      · simp only at e1
        rcases hi' with rfl | rfl | rfl | rfl <;> push_cast at hjx e1
        · linarith
        · linarith
        · linarith
        · right; linarith
  · rcases col3 hk.1 with rfl | rfl | rfl
    · exact .inr (.inr (.inl ⟨ho, by push_cast at hx; linarith⟩))
    · exfalso
      apply hclose
      refine ⟨_, hm.mem, ?_⟩
      simp only [hx]
      push_cast
      refine ⟨by linarith, by linarith, by linarith, by linarith⟩
    · exact .inr (.inr (.inr (.inl ⟨ho, by push_cast at hx; linarith⟩)))
  · have hw := nn w
    rcases he with ⟨ho, hx, y1, y2, hs⟩ | ⟨ho, hx, y1, y2, hs⟩ | ⟨ho, hl, -⟩ | ⟨ho, hl, -⟩
    · rcases col3 hk.1 with rfl | rfl | rfl
      · exact .inr (.inr (.inr (.inr (.inl ⟨.inl ⟨ho, by push_cast at hx; linarith⟩, hs⟩))))
      · exact absurd hs g3
      · exact .inr (.inr (.inr (.inr (.inr (.inl ⟨.inl ⟨ho, by push_cast at hx; linarith⟩, hs⟩)))))
    · rcases col3 hk.1 with rfl | rfl | rfl
      · exact .inr (.inr (.inr (.inr (.inl ⟨.inr ⟨ho, by push_cast at hx; linarith⟩, hs⟩))))
      · exact absurd hs g3
      · exact .inr (.inr (.inr (.inr (.inr (.inl ⟨.inr ⟨ho, by push_cast at hx; linarith⟩, hs⟩)))))
    · exfalso
      rw [hl] at g1 g2
      simp only at g1 g2
      obtain rfl := same_row hm hk g1 g2 (by linarith) (by linarith)
      exact absurd g1 (lt_irrefl _)
    · refine .inr (.inr (.inr (.inr (.inr (.inr ⟨ho, ?_⟩)))))
      rw [hl] at g1 g2 ⊢
      simp only at g1 g2 ⊢
      obtain rfl := same_row hm hk g1 g2 (by linarith) (by linarith)
      rcases col3 hk.1 with rfl | rfl | rfl
      · left; norm_num
      · obtain rfl := hm.unique hk
        exact absurd g2 (lt_irrefl _)
      · right; norm_num

/-- A crossing on the street at `x` on the way from an end to the left or to the right. -/
theorem street_place {c : Point} {o : Orientation} (hc : (c, o) ∈ ES)
    (ho : o = .left ∨ o = .right) {i : Nat} {j : Point} (hj : j ∈ corners ns) (hx : j.x = 10 + 380 * (i : Rat)) (hs : Sees ns c o j) :
    (⟨⟨j.x, c.y⟩, none⟩ : RouteNodeData) ∈ PL := by
  rw [mem_places]
  refine .inl ⟨rfl, mem_crossings.mpr ⟨street_not_close i _ _ hx, .inr ⟨c, o, j, hc, hj, hs, ?_⟩⟩⟩
  rcases ho with rfl | rfl <;> rfl

theorem corner_place {i : Nat} {j : Point} (hj : j ∈ corners ns) (hx : j.x = 10 + 380 * (i : Rat)) :
    (⟨j, none⟩ : RouteNodeData) ∈ PL := by
  rw [mem_places]
  exact .inl ⟨rfl, mem_crossings.mpr ⟨street_not_close i _ _ hx, .inl hj⟩⟩

theorem sees_left {c : Nat} {x y z : Rat} (hx : x = 50 + 380 * (c : Rat)) (hz : z = 10 + 380 * (c : Rat)) {y' : Rat} :
    Sees ns ⟨x, y⟩ .left ⟨z, y'⟩ := by
  subst hx hz
  refine ⟨by simp only; linarith, ?_⟩
  intro R hR _ hlt
  obtain ⟨k, r, w, hk, rfl⟩ := mem_rects.mp hR
  simp only at hlt ⊢
  have : k < c := by
    by_contra hge
    have : (c : Rat) ≤ k := by exact_mod_cast Nat.le_of_not_lt hge
    linarith
  have : (k : Rat) + 1 ≤ c := by exact_mod_cast this
  linarith

theorem sees_right {c : Nat} {x y z : Rat} (hx : x = 350 + 380 * (c : Rat)) (hz : z = 390 + 380 * (c : Rat)) {y' : Rat} :
    Sees ns ⟨x, y⟩ .right ⟨z, y'⟩ := by
  subst hx hz
  refine ⟨by simp only; linarith, ?_⟩
  intro R hR _ hlt
  obtain ⟨k, r, w, hk, rfl⟩ := mem_rects.mp hR
  simp only at hlt ⊢
  have : c < k := by
    by_contra hge
    have : (k : Rat) ≤ c := by exact_mod_cast Nat.le_of_not_lt hge
    linarith
  have : (c : Rat) + 1 ≤ k := by exact_mod_cast this
  linarith

/-- Ends at the sides are ends of a table. -/
theorem sides_tab (h : Ok ns cs) {c : Nat} {y : Rat} (hs : HasSides ES c y) :
    ∃ r m, Tab ns c r m ∧ rowTop ns r < y ∧ y < rowTop ns r + 35 * (m : Rat) := by
  obtain ⟨c', r, m, hm, he1, he2, he3, -⟩ := allEnds_cases h hs.1
  have e : (c' : Rat) = c := by simp only at he1; linarith
  have e : c' = c := by exact_mod_cast e
  subst e
  exact ⟨r, m, hm, he2, he3⟩

theorem base_places (h : Ok ns cs) {c : Nat} {y : Rat} (hb : Base ns ES c y) :
    (⟨⟨10 + 380 * (c : Rat), y⟩, none⟩ : RouteNodeData) ∈ PL ∧ (⟨⟨390 + 380 * (c : Rat), y⟩, none⟩ : RouteNodeData) ∈ PL := by
  have e : (390 + 380 * (c : Rat)) = 10 + 380 * ((c + 1 : Nat) : Rat) := by push_cast; ring
  rcases hb with hs | ⟨h1, h2⟩
  · obtain ⟨r, m, hm, -⟩ := sides_tab h hs
    have j1 : (⟨10 + 380 * (c : Rat), rowTop ns r - 40⟩ : Point) ∈ corners ns := mem_corners.mpr ⟨c, r, m, hm, .inl rfl, .inl rfl⟩
    have j2 : (⟨390 + 380 * (c : Rat), rowTop ns r - 40⟩ : Point) ∈ corners ns := mem_corners.mpr ⟨c, r, m, hm, .inr rfl, .inl rfl⟩
    exact ⟨street_place hs.1 (.inl rfl) j1 rfl (sees_left rfl rfl), street_place hs.2 (.inr rfl) j2 e (sees_right rfl rfl)⟩
  · exact ⟨corner_place h1 rfl, corner_place h2 e⟩

theorem base0_places (h : Ok ns cs) {y : Rat} (hb : Base ns ES 0 y) :
    (⟨⟨10, y⟩, none⟩ : RouteNodeData) ∈ PL ∧ (⟨⟨390, y⟩, none⟩ : RouteNodeData) ∈ PL := by
  simpa using base_places h hb

theorem base2_places (h : Ok ns cs) {y : Rat} (hb : Base ns ES 2 y) :
    (⟨⟨770, y⟩, none⟩ : RouteNodeData) ∈ PL ∧ (⟨⟨1150, y⟩, none⟩ : RouteNodeData) ∈ PL := by
  have := base_places h hb
  norm_num at this
  exact this

/-! ## The order of the places -/

/-- Right ends are listed before left ends. -/
theorem ends_order (h : Ok ns cs) (k : Nat) (y : Rat) :
    NoLater ((⟨350 + 380 * (k : Rat), y⟩, .right) : Point × Orientation) (⟨50 + 380 * (k : Rat), y⟩, .left) ES := by
  have key : ∀ r, ValidRef ns r →
      NoLater ((⟨350 + 380 * (k : Rat), y⟩, .right) : Point × Orientation) (⟨50 + 380 * (k : Rat), y⟩, .left) (endsOf ns r) := by
    intro r hr
    by_cases hmem : ((⟨50 + 380 * (k : Rat), y⟩, .left) : Point × Orientation) ∈ endsOf ns r
    · have hl : (⟨50 + 380 * (k : Rat), y⟩ : Point) = sideMiddle (refRect ns r) .left := by
        simp only [endsOf, List.mem_map, Prod.mk.injEq] at hmem
        obtain ⟨o, -, h1, rfl⟩ := hmem
        exact h1.symm
      have hr' : (⟨350 + 380 * (k : Rat), y⟩ : Point) = sideMiddle (refRect ns r) .right := by
        cases r with
        | table k' =>
          obtain ⟨n, hn⟩ := hr
          simp only [refRect, hn, Option.getD_some, tableRect, sideMiddle, Point.mk.injEq] at hl ⊢
          exact ⟨by linarith [hl.1], hl.2⟩
        | column k' j =>
          obtain ⟨n, hn, -⟩ := hr
          simp only [refRect, lineRect, sideMiddle, Point.mk.injEq] at hl ⊢
          exact ⟨by linarith [hl.1], hl.2⟩
      rw [hl, hr']
      cases r with
      | table k' =>
        have e : endsOf ns (.table k') = [(sideMiddle (refRect ns (.table k')) .up, .up), (sideMiddle (refRect ns (.table k')) .right, .right)] ++
            [(sideMiddle (refRect ns (.table k')) .down, .down), (sideMiddle (refRect ns (.table k')) .left, .left)] := rfl
        rw [e]
        exact .first (by simp) (by simp)
      | column k' j =>
        unfold endsOf sidesOf
        simp only
        split
        · exact NoLater.first (α := Point × Orientation) (l := [(sideMiddle (refRect ns (.column k' j)) .right, .right)]) (by simp) (by simp)
        · exact NoLater.first (α := Point × Orientation) (l := [(sideMiddle (refRect ns (.column k' j)) .right, .right)]) (by simp) (by simp)
    · exact .absent hmem
  unfold allEnds
  exact .flatMap fun c hc => (key _ (h.valid c hc).1).append (key _ (h.valid c hc).2)

/-- At the height of a table in the second column, the right lower corner of another table of the row is listed before the left one. -/
theorem corner_order {y : Rat} {c0 r m : Nat} (hm : Tab ns c0 r m) (g1 : rowTop ns r < y) (g2 : y < rowTop ns r + 35 * (m : Rat)) {x x' : Rat} {i : Nat}
    (hx : x = 10 + 380 * (i : Rat)) (hx' : x' = 390 + 380 * (i : Rat)) (hi : i = c0 + 1 ∨ i = 0) : NoLater (⟨x', y⟩ : Point) ⟨x, y⟩ (corners ns) := by
  subst hx hx'
  apply NoLater.flatMap
  intro R hR
  obtain ⟨c, r', w, hw, rfl⟩ := mem_rects.mp hR
  by_cases hmem : (⟨10 + 380 * (i : Rat), y⟩ : Point) ∈ frameCorners ⟨⟨50 + 380 * (c : Rat), rowTop ns r'⟩, ⟨300, 35 * (w : Rat)⟩⟩
  · have hw0 : (0 : Rat) ≤ w := by exact_mod_cast Nat.zero_le w
    have hy : y = rowTop ns r' - 40 ∨ y = rowTop ns r' + 35 * (w : Rat) + 40 := by
      simp only [frameCorners, List.mem_cons, Point.mk.injEq, List.not_mem_nil, or_false] at hmem
      rcases hmem with ⟨-, h⟩ | ⟨-, h⟩ | ⟨-, h⟩ | ⟨-, h⟩
      · exact .inl h
      · exact .inl h
      · exact .inr h
      · exact .inr h
    obtain rfl := same_row hm hw g1 g2 (by rcases hy with hy | hy <;> linarith) (by rcases hy with hy | hy <;> linarith)
    have hy' : y = rowTop ns r' + 35 * (w : Rat) + 40 := by
      rcases hy with hy | hy
      · linarith
      · exact hy
    have hxc : (i : Rat) = c ∨ (i : Rat) = c + 1 := by
      simp only [frameCorners, List.mem_cons, Point.mk.injEq, List.not_mem_nil, or_false] at hmem
      rcases hmem with ⟨h, -⟩ | ⟨h, -⟩ | ⟨h, -⟩ | ⟨h, -⟩
      · left; linarith
      · right; linarith
      · right; linarith
      · left; linarith
    have hic : i = c := by
      rcases hxc with h | h
      · exact_mod_cast h
      · exfalso
        have h : i = c + 1 := by exact_mod_cast h
        rcases hi with hi | hi
        · have : c = c0 := by omega
          subst this
          obtain rfl := hm.unique hw
          linarith
        · omega
    subst hic
    have e : frameCorners ⟨⟨50 + 380 * (i : Rat), rowTop ns r'⟩, ⟨300, 35 * (w : Rat)⟩⟩ =
        [⟨50 + 380 * (i : Rat) - 40, rowTop ns r' - 40⟩, ⟨50 + 380 * (i : Rat) + 300 + 40, rowTop ns r' - 40⟩,
          ⟨50 + 380 * (i : Rat) + 300 + 40, rowTop ns r' + 35 * (w : Rat) + 40⟩] ++
          [⟨50 + 380 * (i : Rat) - 40, rowTop ns r' + 35 * (w : Rat) + 40⟩] := rfl
    rw [e]
    refine .first ?_ ?_
    · simp only [List.mem_cons, Point.mk.injEq, List.not_mem_nil, or_false]
      exact .inr (.inr ⟨by ring, hy'⟩)
    · simp only [List.mem_cons, Point.mk.injEq, List.not_mem_nil, or_false]
      rintro (⟨-, he⟩ | ⟨-, he⟩ | ⟨he, -⟩) <;> linarith
  · exact .absent hmem

/-- On the left, the crossing nearer to the second table is listed first. -/
theorem order0 (h : Ok ns cs) {y : Rat} (hg : Gap ns cs y) (hb : Base ns ES 0 y) :
    NoLater (⟨⟨390, y⟩, none⟩ : RouteNodeData) ⟨⟨10, y⟩, none⟩ PL := by
  obtain ⟨r, m, hm, g1, g2, g3⟩ := hg
  apply places_order (street_not_close 1 _ _ (by norm_num))
  apply NoLater.append
  · exact corner_order hm g1 g2 (i := 0) (by norm_num) (by norm_num) (.inr rfl)
  · have hord := ends_order h 0 y
    simp only [Nat.cast_zero, mul_zero, add_zero] at hord
    have hcorner : ∃ j ∈ corners ns, j.x = 390 :=
      ⟨⟨390, rowTop ns r - 40⟩, mem_corners.mpr ⟨1, r, m, hm, .inl (by norm_num), .inl rfl⟩, rfl⟩
    refine hord.source (by simp) ?_ ?_
    · rintro ⟨c, o⟩ hc hmm
      simp only [List.mem_map, List.mem_filter, decide_eq_true_eq] at hmm
      obtain ⟨j, ⟨hj, hsee⟩, hcr⟩ := hmm
      obtain ⟨k, r', w, hk, he⟩ := allEnds_cases h hc
      obtain ⟨cx, cy⟩ := c
      have hk0 : (0 : Rat) ≤ k := by exact_mod_cast Nat.zero_le k
      cases o
      · exfalso
        simp only [Point.mk.injEq] at he
        simp only [crossingAt, Point.mk.injEq] at hcr
        linarith [he.1.1, hcr.1]
      · exfalso
        simp only [Point.mk.injEq] at he
        simp only [crossingAt, Point.mk.injEq] at hcr
        linarith [he.1, hcr.1]
      · simp only [crossingAt, Point.mk.injEq] at hcr he
        obtain ⟨hjx, rfl⟩ := hcr
        obtain ⟨hcx, -, hy2, hmate⟩ := he
        have hs' : HasSides ES k cy := ⟨hcx ▸ hc, hmate⟩
        rcases col3 hk.1 with rfl | rfl | rfl
        · simp at hcx
          rw [hcx]
        · exact absurd hs' g3
        · exfalso
          have := hsee.2 _ hm.mem (atHeight g1 g2)
          simp only [hcx] at this
          push_cast at this
          have := this (by norm_num)
          linarith
      · exfalso
        simp only [crossingAt, Point.mk.injEq] at hcr he
        have := hsee.1
        simp only at this
        linarith [he.1, hcr.1]
    · simp only [List.mem_map, List.mem_filter, decide_eq_true_eq]
      obtain ⟨⟨jx, jy⟩, hj, rfl⟩ := hcorner
      exact ⟨_, ⟨hj, sees_right (c := 0) (by norm_num) (by norm_num)⟩, rfl⟩

/-- On the right, the crossing farther from the second table is listed first. -/
theorem order2 (h : Ok ns cs) {y : Rat} (hg : Gap ns cs y) (hb : Base ns ES 2 y) :
    NoLater (⟨⟨1150, y⟩, none⟩ : RouteNodeData) ⟨⟨770, y⟩, none⟩ PL := by
  obtain ⟨r, m, hm, g1, g2, g3⟩ := hg
  apply places_order (street_not_close 3 _ _ (by norm_num))
  apply NoLater.append
  · exact corner_order hm g1 g2 (i := 2) (by norm_num) (by norm_num) (.inl rfl)
  · have hord := ends_order h 2 y
    have e1 : (350 : Rat) + 380 * ((2 : Nat) : Rat) = 1110 := by norm_num
    have e2 : (50 : Rat) + 380 * ((2 : Nat) : Rat) = 810 := by norm_num
    rw [e1, e2] at hord
    have hcorner : ∃ j ∈ corners ns, j.x = 1150 := by
      rcases hb with hs | ⟨-, hc⟩
      · obtain ⟨r', m', hm', -⟩ := sides_tab h hs
        exact ⟨⟨1150, rowTop ns r' - 40⟩, mem_corners.mpr ⟨2, r', m', hm', .inr (by norm_num), .inl rfl⟩, rfl⟩
      · exact ⟨_, hc, by norm_num⟩
    refine hord.source (by simp) ?_ ?_
    · rintro ⟨c, o⟩ hc hmm
      simp only [List.mem_map, List.mem_filter, decide_eq_true_eq] at hmm
      obtain ⟨j, ⟨hj, hsee⟩, hcr⟩ := hmm
      obtain ⟨k, r', w, hk, he⟩ := allEnds_cases h hc
      obtain ⟨cx, cy⟩ := c
      cases o
      · exfalso
        simp only [Point.mk.injEq] at he
        simp only [crossingAt, Point.mk.injEq] at hcr
        rcases col3 hk.1 with rfl | rfl | rfl <;> push_cast at he <;> linarith [he.1.1, hcr.1]
      · exfalso
        simp only [Point.mk.injEq] at he
        simp only [crossingAt, Point.mk.injEq] at hcr
        rcases col3 hk.1 with rfl | rfl | rfl <;> push_cast at he <;> linarith [he.1, hcr.1]
      · simp only [crossingAt, Point.mk.injEq] at hcr he
        obtain ⟨hjx, rfl⟩ := hcr
        obtain ⟨hcx, -, hy2, hmate⟩ := he
        have hs' : HasSides ES k cy := ⟨hcx ▸ hc, hmate⟩
        rcases col3 hk.1 with rfl | rfl | rfl
        · exfalso
          have := hsee.1
          simp only [hcx] at this
          push_cast at this
          linarith
        · exact absurd hs' g3
        · rw [e2] at hcx
          rw [hcx]
      · exfalso
        simp only [crossingAt, Point.mk.injEq] at hcr he
        obtain ⟨hjx, rfl⟩ := hcr
        obtain ⟨hcx, -, hy2, hmate⟩ := he
        have hs' : HasSides ES k cy := ⟨hmate, hcx ▸ hc⟩
        rcases col3 hk.1 with rfl | rfl | rfl
        · have := hsee.2 _ hm.mem (atHeight g1 g2)
          simp only [hcx] at this
          push_cast at this
          have := this (by norm_num)
          linarith
        · exact absurd hs' g3
        · have := hsee.1
          simp only [hcx] at this
          push_cast at this
          linarith
    · simp only [List.mem_map, List.mem_filter, decide_eq_true_eq]
      obtain ⟨⟨jx, jy⟩, hj, rfl⟩ := hcorner
      exact ⟨_, ⟨hj, sees_right (c := 2) (by norm_num) (by norm_num)⟩, rfl⟩

/-! ## Roads through a table of the second column -/

/-- The last crossing before the table of the second column. -/
def LStar (ns : List Nat) (cs : List (NodeRef × NodeRef)) (y : Rat) (u : RouteNodeData) : Prop :=
  u.orientation = none ∧ u.location.y = y ∧ (u.location.x = 390 ∨
    u.location.x = 200 ∧ (⟨⟨390, y⟩, none⟩ : RouteNodeData) ∉ places ns (allEnds ns cs))

/-- The first crossing after the table of the second column. -/
def RStar (ns : List Nat) (cs : List (NodeRef × NodeRef)) (y : Rat) (v : RouteNodeData) : Prop :=
  v.orientation = none ∧ v.location.y = y ∧ (v.location.x = 770 ∨
    v.location.x = 960 ∧ (⟨⟨770, y⟩, none⟩ : RouteNodeData) ∉ places ns (allEnds ns cs))

/-- A crossing above or below the middle of a table is not between its sides. -/
theorem middle_base (h : Ok ns cs) {n : RouteNodeData} (hn : n ∈ PL) (ho : n.orientation = none) {c : Nat}
    (hx : n.location.x = 200 + 380 * (c : Rat)) : ¬ HasSides ES c n.location.y := by
  intro hs
  obtain ⟨r, m, hm, h1, h2⟩ := sides_tab h hs
  obtain ⟨⟨h3, -⟩ | ⟨h3, -⟩, -⟩ := inside_place h hn hm h1 h2 (by rw [hx]; linarith) (by rw [hx]; linarith) <;> rw [ho] at h3 <;> cases h3

theorem corner_x {p : Point} (hp : p ∈ corners ns) {c : Nat} : p.x ≠ 200 + 380 * (c : Rat) := by
  intro hx
  obtain ⟨i, -, hi⟩ := street_x hp
  rcases street_off (k := c) hi with h | h <;> linarith

theorem cross_right (h : Ok ns cs) {a b : Nat} {u v : RouteNodeData}
    (hr : NeighbourIn ns PL .right a b) (hu : (PL)[a]? = some u) (hv : (PL)[b]? = some v) {k r w : Nat} (hk : Tab ns k r w)
    (hc : PassesAt ns k r w u.location.x v.location.x u.location.y) :
    Gap ns cs u.location.y ∧ LStar ns cs u.location.y u ∧
      (v.orientation = none ∧ v.location.y = u.location.y ∧ v.location.x = 1150 ∨ RStar ns cs u.location.y v) := by
  obtain ⟨ht, ho1, ho2⟩ := neighbour_ahead hr hu hv
  have hum := List.mem_of_getElem? hu
  have hvm := List.mem_of_getElem? hv
  obtain ⟨hyv, hxv⟩ := ht
  have hno0 : ∀ w0, Tab ns 0 r w0 → ¬ PassesAt ns 0 r w0 u.location.x v.location.x u.location.y := by
    intro w0 hm0 hp
    obtain ⟨hs, hx⟩ := first_end h hum ho1 hm0 hp.2.2.1 hp.2.2.2 (by simpa using hp.1)
    exact no_road_right hr hu hv hm0 hp (fun j v' _ hij => absurd hij (Nat.not_lt_zero j)) (by simpa using hx) hs
  have h1 : ∃ m1, Tab ns 1 r m1 ∧ PassesAt ns 1 r m1 u.location.x v.location.x u.location.y := by
    rcases col3 hk.1 with rfl | rfl | rfl
    · exact absurd hc (hno0 w hk)
    · exact ⟨w, hk, hc⟩
    · by_contra hno1
      push Not at hno1
      obtain ⟨c1, c2, c3, c4⟩ := hc
      obtain ⟨hs, hx⟩ := last_end h hvm ho2 hk (by rw [hyv]; exact c3) (by rw [hyv]; exact c4) (by push_cast at c2; linarith)
      rw [hyv] at hs
      refine no_road_right hr hu hv hk ⟨c1, c2, c3, c4⟩ ?_ ?_ hs
      · intro i v' hi hlt
        have : i = 0 ∨ i = 1 := by omega
        rcases this with rfl | rfl
        · exact hno0 v' hi
        · exact hno1 v' hi
      · by_contra hge
        push Not at hge
        rcases inside_place h hum hk c3 c4 hge c1.le with ⟨⟨h1, -⟩ | ⟨-, h1⟩, -⟩
        · exact not_open ho1 h1 (by simp)
        · linarith
  obtain ⟨m1, hm1, c1, c2, c3, c4⟩ := h1
  have hux : u.location.x < 430 := by
    by_contra hge
    push Not at hge
    rcases inside_place h hum hm1 c3 c4 (by push_cast; linarith) c1.le with ⟨⟨h1, -⟩ | ⟨-, h1⟩, -⟩
    · exact not_open ho1 h1 (by simp)
    · linarith
  have hg : Gap ns cs u.location.y := by
    refine ⟨r, m1, hm1, c3, c4, fun hs => ?_⟩
    refine no_road_right hr hu hv hm1 ⟨c1, c2, c3, c4⟩ ?_ (by push_cast; linarith) hs
    intro i v' hi hlt
    have : i = 0 := by omega
    subst this
    exact hno0 v' hi
  have hob : Obstructed ns .right u.location v.location := ⟨by simp, _, hm1.mem, passes_meets h hum hvm hyv hxv ⟨c1, c2, c3, c4⟩⟩
  push_cast at c1 c2
  have hvx : 430 < v.location.x := by linarith
  have hfirst := eligible_first hr hu hv hob
  -- a crossing at 390 would be nearer
  have over390 : (⟨⟨390, u.location.y⟩, none⟩ : RouteNodeData) ∈ PL → u.location.x < 390 → False := by
    intro hp hlt
    refine not_over_right hr hu hv hp (.inl rfl) rfl hlt (by simp only; linarith) ?_
    rintro k' r' w' hk' ⟨d1, d2, d3, d4⟩
    simp only at d2
    obtain rfl := same_row hm1 hk' c3 c4 (by linarith) (by linarith)
    rcases col3 hk'.1 with rfl | rfl | rfl
    · exact hno0 w' hk' ⟨d1, by push_cast at d2 ⊢; linarith, d3, d4⟩
    · push_cast at d2; linarith
    · push_cast at d2; linarith
  refine ⟨hg, ?_, ?_⟩
  · rcases row_cases h hum hg with ⟨ho, hx, hb⟩ | ⟨ho, hx, hb⟩ | ⟨ho, hx⟩ | ⟨ho, hx⟩ | ⟨hx, hb⟩ | ⟨hx, hb⟩ | ⟨ho, hx⟩
    · rcases hx with hx | hx
      · exact (over390 (base0_places h hb).2 (by linarith)).elim
      · exact ⟨ho, rfl, .inl hx⟩
    · rcases hx with hx | hx <;> linarith
    · exact ⟨ho, rfl, .inr ⟨hx, fun hp => over390 hp (by linarith)⟩⟩
    · linarith
    · exact (over390 (base0_places h (.inl hb)).2 (by rcases hx with ⟨-, hx⟩ | ⟨-, hx⟩ <;> linarith)).elim
    · rcases hx with ⟨-, hx⟩ | ⟨-, hx⟩ <;> linarith
    · exact (not_open ho1 ho (by simp)).elim
  · have hg' := hg
    rw [← hyv] at hg'
    have ahead : ∀ {p : RouteNodeData}, p.orientation = none → p.location.y = u.location.y → 430 < p.location.x → Ahead .right u p :=
      fun h1 h2 h3 => ⟨⟨h2, by linarith⟩, ho1, .inl h1⟩
    rcases row_cases h hvm hg' with ⟨ho, hx, hb⟩ | ⟨ho, hx, hb⟩ | ⟨ho, hx⟩ | ⟨ho, hx⟩ | ⟨hx, hb⟩ | ⟨hx, hb⟩ | ⟨ho, hx⟩
    · rcases hx with hx | hx <;> linarith
    · rcases hx with hx | hx
      · have hno := order2 h hg' hb
        rw [← rnd_eq ho hx rfl] at hno
        refine (hno.not_first ?_ hv (ahead rfl hyv (by norm_num)) hfirst).elim
        intro he
        rw [← he] at hx
        norm_num at hx
      · exact .inl ⟨ho, hyv, hx⟩
    · linarith
    · refine .inr ⟨ho, hyv, .inr ⟨hx, ?_⟩⟩
      intro hp
      rw [← hyv] at hp
      rcases row_cases h hp hg' with ⟨-, hx', -⟩ | ⟨-, -, hb'⟩ | ⟨-, hx'⟩ | ⟨-, hx'⟩ | ⟨⟨hx', -⟩ | ⟨hx', -⟩, -⟩ |
          ⟨⟨hx', -⟩ | ⟨hx', -⟩, -⟩ | ⟨hx', -⟩
      · norm_num at hx'
      · rcases hb' with hb' | ⟨-, hb'⟩
        · exact middle_base h hvm ho (c := 2) (by rw [hx]; norm_num) hb'
        have e : (390 + 380 * ((2 : Nat) : Rat)) = 1150 := by norm_num
        rw [e] at hb'
        have hno := corners_first (ns := ns) (es := ES) (p := ⟨1150, v.location.y⟩) (q := v.location)
          (street_not_close 3 _ _ (by norm_num)) hb' (fun hc => corner_x hc (c := 2) (by rw [hx]; norm_num))
        have ev : (⟨v.location, none⟩ : RouteNodeData) = v := by rw [← ho]
        rw [ev] at hno
        refine hno.not_first ?_ hv (ahead rfl hyv (by norm_num)) hfirst
        intro he
        rw [← he] at hx
        norm_num at hx
      · norm_num at hx'
      · norm_num at hx'
      · cases hx'
      · cases hx'
      · cases hx'
      · cases hx'
      · cases hx'
    · rcases hx with ⟨-, hx⟩ | ⟨-, hx⟩ <;> linarith
    · have hp := (base2_places h (.inl hb)).2
      rcases hx with ⟨ho, hx⟩ | ⟨ho, hx⟩
      · refine ((ends_last hp ho).not_first ?_ hv (ahead rfl hyv (by norm_num)) hfirst).elim
        intro he
        rw [← he] at ho
        cases ho
      · exact (not_open ho2 ho (by simp [opposite])).elim
    · exact (not_open ho2 ho (by simp [opposite])).elim

theorem cross_left (h : Ok ns cs) {a b : Nat} {u v : RouteNodeData}
    (hr : NeighbourIn ns PL .left a b) (hv : (PL)[a]? = some v) (hu : (PL)[b]? = some u) {k r w : Nat} (hk : Tab ns k r w)
    (hc : PassesAt ns k r w u.location.x v.location.x v.location.y) :
    Gap ns cs v.location.y ∧ LStar ns cs v.location.y u ∧ RStar ns cs v.location.y v := by
  obtain ⟨ht, ho1, ho2⟩ := neighbour_ahead hr hv hu
  have hum := List.mem_of_getElem? hu
  have hvm := List.mem_of_getElem? hv
  obtain ⟨hyv, hxv⟩ := ht
  have hno2 : ∀ w2, Tab ns 2 r w2 → ¬ PassesAt ns 2 r w2 u.location.x v.location.x v.location.y := by
    intro w2 hm2 hp
    obtain ⟨hs, hx⟩ := last_end h hvm ho1 hm2 hp.2.2.1 hp.2.2.2 (by have := hp.2.1; push_cast at this; linarith)
    refine no_road_left hr hv hu hm2 hp ?_ (by push_cast; linarith) hs
    intro j v' hj hij
    have := hj.1
    omega
  have h1 : ∃ m1, Tab ns 1 r m1 ∧ PassesAt ns 1 r m1 u.location.x v.location.x v.location.y := by
    rcases col3 hk.1 with rfl | rfl | rfl
    · by_contra hno1
      push Not at hno1
      obtain ⟨c1, c2, c3, c4⟩ := hc
      obtain ⟨hs, hx⟩ := first_end h hum ho2 hk (by rw [hyv]; exact c3) (by rw [hyv]; exact c4) (by simpa using c1)
      rw [hyv] at hs
      refine no_road_left hr hv hu hk ⟨c1, c2, c3, c4⟩ ?_ ?_ hs
      · intro i v' hi hlt
        have := hi.1
        have : i = 1 ∨ i = 2 := by omega
        rcases this with rfl | rfl
        · exact hno1 v' hi
        · exact hno2 v' hi
      · by_contra hge
        push Not at hge
        rcases inside_place h hvm hk c3 c4 c2.le hge with ⟨⟨-, h1⟩ | ⟨h1, -⟩, -⟩
        · linarith
        · exact not_open ho1 h1 (by simp)
    · exact ⟨w, hk, hc⟩
    · exact absurd hc (hno2 w hk)
  obtain ⟨m1, hm1, c1, c2, c3, c4⟩ := h1
  have hvx : 730 < v.location.x := by
    by_contra hge
    push Not at hge
    rcases inside_place h hvm hm1 c3 c4 c2.le (by push_cast; linarith) with ⟨⟨-, h1⟩ | ⟨h1, -⟩, -⟩
    · linarith
    · exact not_open ho1 h1 (by simp)
  have hg : Gap ns cs v.location.y := by
    refine ⟨r, m1, hm1, c3, c4, fun hs => ?_⟩
    refine no_road_left hr hv hu hm1 ⟨c1, c2, c3, c4⟩ ?_ (by push_cast; linarith) hs
    intro i v' hi hlt
    have := hi.1
    have : i = 2 := by omega
    subst this
    exact hno2 v' hi
  have hob : Obstructed ns .left v.location u.location :=
    ⟨by simp, _, hm1.mem, (meets_swap _ _ _).mp
      (passes_meets h hum hvm hyv.symm hxv ⟨c1, c2, by rw [hyv]; exact c3, by rw [hyv]; exact c4⟩)⟩
  push_cast at c1 c2
  have hux : u.location.x < 730 := by linarith
  have hfirst := eligible_first hr hv hu hob
  have over770 : (⟨⟨770, v.location.y⟩, none⟩ : RouteNodeData) ∈ PL → 770 < v.location.x → False := by
    intro hp hlt
    refine not_over_left hr hv hu hp (.inl rfl) rfl hlt (by simp only; linarith) ?_
    rintro k' r' w' hk' ⟨d1, d2, d3, d4⟩
    simp only at d1 d3 d4
    obtain rfl := same_row hm1 hk' c3 c4 (by linarith) (by linarith)
    rcases col3 hk'.1 with rfl | rfl | rfl
    · push_cast at d1; linarith
    · push_cast at d1; linarith
    · exact hno2 w' hk' ⟨by push_cast at d1 ⊢; linarith, d2, d3, d4⟩
  refine ⟨hg, ?_, ?_⟩
  · have hg' := hg
    rw [← hyv] at hg'
    have ahead : ∀ {p : RouteNodeData}, p.orientation = none → p.location.y = v.location.y → p.location.x < 730 → Ahead .left v p :=
      fun h1 h2 h3 => ⟨⟨h2, by linarith⟩, ho1, .inl h1⟩
    rcases row_cases h hum hg' with ⟨ho, hx, hb⟩ | ⟨ho, hx, hb⟩ | ⟨ho, hx⟩ | ⟨ho, hx⟩ | ⟨hx, hb⟩ | ⟨hx, hb⟩ | ⟨ho, hx⟩
    · rcases hx with hx | hx
      · have hno := order0 h hg' hb
        rw [← rnd_eq ho hx rfl] at hno
        refine (hno.not_first ?_ hu (ahead rfl hyv (by norm_num)) hfirst).elim
        intro he
        rw [← he] at hx
        norm_num at hx
      · exact ⟨ho, hyv, .inl hx⟩
    · rcases hx with hx | hx <;> linarith
    · refine ⟨ho, hyv, .inr ⟨hx, ?_⟩⟩
      intro hp
      rw [← hyv] at hp
      rcases row_cases h hp hg' with ⟨-, -, hb'⟩ | ⟨-, hx', -⟩ | ⟨-, hx'⟩ | ⟨-, hx'⟩ | ⟨⟨hx', -⟩ | ⟨hx', -⟩, -⟩ |
          ⟨⟨hx', -⟩ | ⟨hx', -⟩, -⟩ | ⟨hx', -⟩
      · rcases hb' with hb' | ⟨-, hb'⟩
        · exact middle_base h hum ho (c := 0) (by rw [hx]; norm_num) hb'
        have e : (390 + 380 * ((0 : Nat) : Rat)) = 390 := by norm_num
        rw [e] at hb'
        have hno := corners_first (ns := ns) (es := ES) (p := ⟨390, u.location.y⟩) (q := u.location)
          (street_not_close 1 _ _ (by norm_num)) hb' (fun hc => corner_x hc (c := 0) (by rw [hx]; norm_num))
        have ev : (⟨u.location, none⟩ : RouteNodeData) = u := by rw [← ho]
        rw [ev] at hno
        refine hno.not_first ?_ hu (ahead rfl hyv (by norm_num)) hfirst
        intro he
        rw [← he] at hx
        norm_num at hx
      · norm_num at hx'
      · norm_num at hx'
      · norm_num at hx'
      · cases hx'
      · cases hx'
      · cases hx'
      · cases hx'
      · cases hx'
    · linarith
    · have hp := (base0_places h (.inl hb)).2
      rcases hx with ⟨ho, hx⟩ | ⟨ho, hx⟩
      · exact (not_open ho2 ho (by simp [opposite])).elim
      · refine ((ends_last hp ho).not_first ?_ hu (ahead rfl hyv (by norm_num)) hfirst).elim
        intro he
        rw [← he] at ho
        cases ho
    · rcases hx with ⟨-, hx⟩ | ⟨-, hx⟩ <;> linarith
    · exact (not_open ho2 ho (by simp [opposite])).elim
  · rcases row_cases h hvm hg with ⟨ho, hx, hb⟩ | ⟨ho, hx, hb⟩ | ⟨ho, hx⟩ | ⟨ho, hx⟩ | ⟨hx, hb⟩ | ⟨hx, hb⟩ | ⟨ho, hx⟩
    · rcases hx with hx | hx <;> linarith
    · rcases hx with hx | hx
      · exact ⟨ho, rfl, .inl hx⟩
      · exact (over770 (base2_places h hb).1 (by linarith)).elim
    · linarith
    · exact ⟨ho, rfl, .inr ⟨hx, fun hp => over770 hp (by linarith)⟩⟩
    · rcases hx with ⟨-, hx⟩ | ⟨-, hx⟩ <;> linarith
    · exact (over770 (base2_places h (.inl hb)).1 (by rcases hx with ⟨-, hx⟩ | ⟨-, hx⟩ <;> linarith)).elim
    · exact (not_open ho1 ho (by simp)).elim

end

end Seiren.Grid
