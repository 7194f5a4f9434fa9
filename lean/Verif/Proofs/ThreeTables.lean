import Verif.Proofs.Trips
/-! # The road map of modules with three tables -/

namespace Seiren
open Spec

theorem three_idx {m0 m1 m2 k n : Nat} (h : [m0, m1, m2][k]? = some n) : k = 0 ∧ n = m0 ∨ k = 1 ∧ n = m1 ∨ k = 2 ∧ n = m2 := by
  match k, h with
  | 0, h => simp at h; exact .inl ⟨rfl, h.symm⟩
  | 1, h => simp at h; exact .inr (.inl ⟨rfl, h.symm⟩)
  | 2, h => simp at h; exact .inr (.inr ⟨rfl, h.symm⟩)

theorem corners_three (m0 m1 m2 : Nat) : corners [m0, m1, m2] =
    [⟨10, 10⟩, ⟨390, 10⟩, ⟨390, 90 + 35 * (m0 : Rat)⟩, ⟨10, 90 + 35 * (m0 : Rat)⟩,
      ⟨390, 10⟩, ⟨770, 10⟩, ⟨770, 90 + 35 * (m1 : Rat)⟩, ⟨390, 90 + 35 * (m1 : Rat)⟩,
      ⟨770, 10⟩, ⟨1150, 10⟩, ⟨1150, 90 + 35 * (m2 : Rat)⟩, ⟨770, 90 + 35 * (m2 : Rat)⟩] := by
  have e : tableRects [m0, m1, m2] = [tableRect [m0, m1, m2] 0 m0, tableRect [m0, m1, m2] 1 m1, tableRect [m0, m1, m2] 2 m2] := rfl
  rw [corners, e]
  simp only [tableRect_row _ (show 0 < 3 by omega), tableRect_row _ (show 1 < 3 by omega), tableRect_row _ (show 2 < 3 by omega),
    List.flatMap_cons, List.flatMap_nil, frameCorners, List.append_nil, List.cons_append, List.nil_append, List.cons.injEq,
    Point.mk.injEq]
  refine ⟨?_, ?_, ?_, ?_, ?_, ?_, ?_, ?_, ?_, ?_, ?_, ?_, trivial⟩ <;> constructor <;> push_cast <;> linarith

/-- A place beside the tables, on a street that goes down, is not close to a table. -/
theorem street_not_close {ns : List Nat} {cs : List (NodeRef × NodeRef)} (h : OneRow ns cs) (i : Nat) (x y : Rat)
    (hx : x = 10 + 380 * (i : Rat)) : ¬ CloseToTable ns ⟨x, y⟩ := by
  rintro ⟨r, hr, h1, h2, -⟩
  obtain ⟨k, n, hn, rfl⟩ := (mem_tableRects ns r).mp hr
  rw [tableRect_row ns (h.lt hn)] at h1 h2
  simp only at h1 h2
  rcases street_off (k := k) hx with h3 | h3 <;> linarith

/-- Ends at the sides are at the middles of lines or between lines. -/
theorem side_half {ns : List Nat} {cs : List (NodeRef × NodeRef)} (h : OneRow ns cs) {p : Point} {o : Orientation}
    (hp : (p, o) ∈ allEnds ns cs) (ho : o = .left ∨ o = .right) : ∃ i : Nat, p.y = 50 + 35 / 2 * (i : Rat) := by
  simp only [allEnds, List.mem_flatMap, List.mem_append] at hp
  have key : ∀ r, ValidRef ns r → (p, o) ∈ endsOf ns r → ∃ i : Nat, p.y = 50 + 35 / 2 * (i : Rat) := by
    intro r hr hpr
    simp only [endsOf, List.mem_map, Prod.mk.injEq] at hpr
    obtain ⟨o', -, rfl, rfl⟩ := hpr
    cases r with
    | table k =>
      obtain ⟨n, hn⟩ := hr
      refine ⟨n, ?_⟩
      rcases ho with rfl | rfl <;> simp only [refRect, hn, Option.getD_some, tableRect_row ns (h.lt hn), sideMiddle] <;> ring
    | column k j =>
      obtain ⟨n, hn, -⟩ := hr
      refine ⟨2 * (j + 1) + 1, ?_⟩
      rcases ho with rfl | rfl <;> simp only [refRect, lineRect_row ns (h.lt hn), sideMiddle] <;> push_cast <;> ring
  obtain ⟨c, hc, hp | hp⟩ := hp
  · exact key _ (h.valid c hc).1 hp
  · exact key _ (h.valid c hc).2 hp

/-- The height of a place is not close to the upper or lower side of a table. -/
theorem height_inner {ns : List Nat} {cs : List (NodeRef × NodeRef)} (h : OneRow ns cs) {n : RouteNodeData}
    (hn : n ∈ places ns (allEnds ns cs)) {w : Nat} (h1 : 50 < n.location.y) (h2 : n.location.y < 50 + 35 * (w : Rat)) :
    51 ≤ n.location.y ∧ n.location.y ≤ 49 + 35 * (w : Rat) := by
  have half : ∀ i : Nat, n.location.y = 50 + 35 / 2 * (i : Rat) → 51 ≤ n.location.y ∧ n.location.y ≤ 49 + 35 * (w : Rat) := by
    intro i hi
    rw [hi] at h1 h2 ⊢
    have a1 : 0 < i := by
      by_contra hc
      have : i = 0 := by omega
      subst this
      simp at h1
    have a2 : i < 2 * w := by
      by_contra hc
      have : (2 * w : Rat) ≤ i := by exact_mod_cast Nat.le_of_not_lt hc
      linarith
    have a1' : (1 : Rat) ≤ i := by exact_mod_cast a1
    have a2' : (i : Rat) + 1 ≤ 2 * w := by exact_mod_cast a2
    constructor <;> linarith
  have low : ∀ i : Nat, n.location.y = 90 + 35 * (i : Rat) → 51 ≤ n.location.y ∧ n.location.y ≤ 49 + 35 * (w : Rat) := by
    intro i hi
    rw [hi] at h1 h2 ⊢
    have a0 : (0 : Rat) ≤ i := by exact_mod_cast Nat.zero_le i
    have a2 : i + 1 < w := by
      by_contra hc
      have : (w : Rat) ≤ i + 1 := by exact_mod_cast Nat.le_of_not_lt hc
      linarith
    have a2' : (i : Rat) + 2 ≤ w := by exact_mod_cast a2
    constructor <;> linarith
  rcases place_cases h hn with ⟨-, k', m', hm', -, hy⟩ | ⟨-, k', m', hm', -, -, hs, -⟩ | ⟨-, k', m', hm', -, hv⟩ | ⟨k', m', hm', he⟩
  · rcases hy with hy | hy
    · rw [hy] at h1; norm_num at h1
    · exact low m' hy
  · obtain ⟨i, hi⟩ := side_half h hs.1 (.inl rfl)
    exact half i hi
  · rcases hv with ⟨-, hy⟩ | ⟨-, i, m'', -, -, hy⟩
    · rw [hy] at h1; norm_num at h1
    · exact low m'' hy
  · rcases he with ⟨-, -, -, -, hs⟩ | ⟨-, -, -, -, hs⟩ | ⟨-, hl, -⟩ | ⟨-, hl, -⟩
    · obtain ⟨i, hi⟩ := side_half h hs.1 (.inl rfl)
      exact half i hi
    · obtain ⟨i, hi⟩ := side_half h hs.1 (.inl rfl)
      exact half i hi
    · rw [hl] at h1; norm_num at h1
    · refine half (2 * m') ?_
      rw [hl]
      push_cast
      ring

/-- The horizontal positions of places. -/
theorem place_x {ns : List Nat} {cs : List (NodeRef × NodeRef)} (h : OneRow ns cs) {n : RouteNodeData}
    (hn : n ∈ places ns (allEnds ns cs)) :
    ∃ i : Nat, i ≤ 3 ∧ (n.orientation = none ∧ n.location.x = 10 + 380 * (i : Rat) ∨ i ≤ 2 ∧
      (n.orientation = some .left ∧ n.location.x = 50 + 380 * (i : Rat) ∨ n.location.x = 200 + 380 * (i : Rat) ∨
        n.orientation = some .right ∧ n.location.x = 350 + 380 * (i : Rat))) := by
  rcases place_cases h hn with ⟨ho, k', m', hm', hx, -⟩ | ⟨ho, k', m', hm', -, -, -, j, hj, hx, -⟩ | ⟨-, k', m', hm', hx, -⟩ |
      ⟨k', m', hm', he⟩
  · have hk := h.lt hm'
    rcases hx with hx | hx
    · exact ⟨k', by omega, .inl ⟨ho, hx⟩⟩
    · exact ⟨k' + 1, by omega, .inl ⟨ho, by push_cast; linarith⟩⟩
  · obtain ⟨i, hi, -, hx'⟩ := street_x h hj
    exact ⟨i, hi, .inl ⟨ho, hx.trans hx'⟩⟩
  · have hk := h.lt hm'
    exact ⟨k', by omega, .inr ⟨by omega, .inr (.inl hx)⟩⟩
  · have hk := h.lt hm'
    refine ⟨k', by omega, .inr ⟨by omega, ?_⟩⟩
    rcases he with ⟨ho, hx, -⟩ | ⟨ho, hx, -⟩ | ⟨-, hl, -⟩ | ⟨-, hl, -⟩
    · exact .inl ⟨ho, hx⟩
    · exact .inr (.inr ⟨ho, hx⟩)
    · exact .inr (.inl (by rw [hl]))
    · exact .inr (.inl (by rw [hl]))

/-- A horizontal way between places that passes through a table is obstructed. -/
theorem passes_meets {ns : List Nat} {cs : List (NodeRef × NodeRef)} (h : OneRow ns cs) {n m : RouteNodeData}
    (hn : n ∈ places ns (allEnds ns cs)) (hm : m ∈ places ns (allEnds ns cs)) (hy : m.location.y = n.location.y)
    (hx : n.location.x < m.location.x) {k w : Nat} (hk : ns[k]? = some w)
    (hc : PassesAt k w n.location.x m.location.x n.location.y) :
    Meets (inside (tableRect ns k w)) n.location m.location := by
  obtain ⟨c1, c2, c3, c4⟩ := hc
  obtain ⟨y1, y2⟩ := height_inner h hn c3 c4
  have step : ∀ {i : Nat} {a : Rat}, (a = 10 ∨ a = 50 ∨ a = 200 ∨ a = 350) → ∀ {x : Rat}, x = a + 380 * (i : Rat) →
      (x < 350 + 380 * (k : Rat) → x ≤ 200 + 380 * (k : Rat)) ∧ (50 + 380 * (k : Rat) < x → 200 + 380 * (k : Rat) ≤ x) := by
    intro i a ha x hx
    rcases Nat.lt_trichotomy i k with hik | hik | hik
    · have : (i : Rat) + 1 ≤ k := by exact_mod_cast hik
      constructor <;> intro hlt <;> rcases ha with rfl | rfl | rfl | rfl <;> linarith
    · subst hik
      constructor <;> intro hlt <;> rcases ha with rfl | rfl | rfl | rfl <;> linarith
    · have : (k : Rat) + 1 ≤ i := by exact_mod_cast hik
      constructor <;> intro hlt <;> rcases ha with rfl | rfl | rfl | rfl <;> linarith
  have b1 : n.location.x ≤ 200 + 380 * (k : Rat) := by
    obtain ⟨i, -, ⟨-, hi⟩ | ⟨-, ⟨-, hi⟩ | hi | ⟨-, hi⟩⟩⟩ := place_x h hn <;> exact (step (by norm_num) hi).1 c1
  have b2 : 200 + 380 * (k : Rat) ≤ m.location.x := by
    obtain ⟨i, -, ⟨-, hi⟩ | ⟨-, ⟨-, hi⟩ | hi | ⟨-, hi⟩⟩⟩ := place_x h hm <;> exact (step (by norm_num) hi).2 c2
  have hpos : 0 < m.location.x - n.location.x := by linarith
  refine ⟨(200 + 380 * (k : Rat) - n.location.x) / (m.location.x - n.location.x), div_nonneg (by linarith) hpos.le,
    (div_le_one hpos).mpr (by linarith), ?_⟩
  have e : n.location.x + (200 + 380 * (k : Rat) - n.location.x) / (m.location.x - n.location.x) * (m.location.x - n.location.x) =
      200 + 380 * (k : Rat) := by
    rw [div_mul_cancel₀ _ hpos.ne']; ring
  simp only [InRect, lerp, e, hy, sub_self, mul_zero, add_zero]
  rw [tableRect_row ns (h.lt hk)]
  simp only [inside]
  refine ⟨by linarith, by linarith, by linarith, by linarith⟩

/-! ## The places at a height of the second table where it has no ends -/

section
variable {m0 m1 m2 : Nat} {cs : List (NodeRef × NodeRef)}

/-- At height `y` there are corners of table `k`, which has `w` lines, or ends at its sides. -/
def Base (S : List (Point × Orientation)) (k w : Nat) (y : Rat) : Prop :=
  y = 90 + 35 * (w : Rat) ∨ HasSides S k y ∧ y < 50 + 35 * (w : Rat)

/-- The height is one of the second table, where it has no ends. -/
structure Gap (m0 m1 m2 : Nat) (cs : List (NodeRef × NodeRef)) (y : Rat) : Prop where
  above : 50 < y
  below : y < 50 + 35 * (m1 : Rat)
  free : ¬ HasSides (allEnds [m0, m1, m2] cs) 1 y

theorem row_cases (h : OneRow [m0, m1, m2] cs) {n : RouteNodeData} (hn : n ∈ places [m0, m1, m2] (allEnds [m0, m1, m2] cs))
    (hg : Gap m0 m1 m2 cs n.location.y) :
    (n.orientation = none ∧ (n.location.x = 10 ∨ n.location.x = 390) ∧ Base (allEnds [m0, m1, m2] cs) 0 m0 n.location.y) ∨
    (n.orientation = none ∧ (n.location.x = 770 ∨ n.location.x = 1150) ∧ Base (allEnds [m0, m1, m2] cs) 2 m2 n.location.y) ∨
    (n.orientation = none ∧ n.location.x = 200 ∧ 50 + 35 * (m0 : Rat) < n.location.y) ∨
    (n.orientation = none ∧ n.location.x = 960 ∧ 50 + 35 * (m2 : Rat) < n.location.y) ∨
    ((n.orientation = some .left ∧ n.location.x = 50 ∨ n.orientation = some .right ∧ n.location.x = 350) ∧
      HasSides (allEnds [m0, m1, m2] cs) 0 n.location.y ∧ n.location.y < 50 + 35 * (m0 : Rat)) ∨
    ((n.orientation = some .left ∧ n.location.x = 810 ∨ n.orientation = some .right ∧ n.location.x = 1110) ∧
      HasSides (allEnds [m0, m1, m2] cs) 2 n.location.y ∧ n.location.y < 50 + 35 * (m2 : Rat)) ∨
    (n.orientation = some .down ∧ (n.location.x = 200 ∨ n.location.x = 960)) := by
  obtain ⟨g1, g2, g3⟩ := hg
  have hm1 : [m0, m1, m2][1]? = some m1 := rfl
  rcases place_cases h hn with ⟨ho, k, w, hk, hx, hy⟩ | ⟨ho, k, w, hk, y1, y2, hs, j, hj, hx, hsee⟩ |
      ⟨ho, k, w, hk, hx, hv⟩ | ⟨k, w, hk, he⟩
  · have hy : n.location.y = 90 + 35 * (w : Rat) := by
      rcases hy with hy | hy
      · rw [hy] at g1; norm_num at g1
      · exact hy
    rcases three_idx hk with ⟨rfl, rfl⟩ | ⟨rfl, rfl⟩ | ⟨rfl, rfl⟩
    · refine .inl ⟨ho, ?_, .inl hy⟩
      rcases hx with hx | hx <;> push_cast at hx <;> [left; right] <;> linarith
    · linarith
    · refine .inr (.inl ⟨ho, ?_, .inl hy⟩)
      rcases hx with hx | hx <;> push_cast at hx <;> [left; right] <;> linarith
  · have hsee1 := atHeight_row h hm1 g1 g2
    have hmem1 : tableRect [m0, m1, m2] 1 m1 ∈ tableRects [m0, m1, m2] := (mem_tableRects _ _).mpr ⟨1, m1, hm1, rfl⟩
    obtain ⟨i, hi, -, hjx⟩ := street_x h hj
    have hi' : i = 0 ∨ i = 1 ∨ i = 2 ∨ i = 3 := by omega
    rcases three_idx hk with ⟨rfl, rfl⟩ | ⟨rfl, rfl⟩ | ⟨rfl, rfl⟩
    · refine .inl ⟨ho, ?_, .inr ⟨hs, y2⟩⟩
      rcases hsee with ⟨e1, -⟩ | ⟨e1, e2⟩
      · simp only at e1
        rcases hi' with rfl | rfl | rfl | rfl <;> push_cast at hjx e1
        · left; linarith
        · linarith
        · linarith
        · linarith
      · have e2 := e2 _ hmem1 hsee1
        rw [tableRect_row _ (by omega)] at e2
        simp only at e1 e2
        push_cast at e1 e2
        have e2 := e2 (by norm_num)
        rcases hi' with rfl | rfl | rfl | rfl <;> push_cast at hjx
        · linarith
        · right; linarith
        · linarith
        · linarith
    · exact absurd hs g3
    · refine .inr (.inl ⟨ho, ?_, .inr ⟨hs, y2⟩⟩)
      rcases hsee with ⟨e1, e2⟩ | ⟨e1, -⟩
      · have e2 := e2 _ hmem1 hsee1
        rw [tableRect_row _ (by omega)] at e2
        simp only at e1 e2
        push_cast at e1 e2
        have e2 := e2 (by norm_num)
        rcases hi' with rfl | rfl | rfl | rfl <;> push_cast at hjx
        · linarith
        · linarith
        · left; linarith
        · linarith
      · simp only at e1
        rcases hi' with rfl | rfl | rfl | rfl <;> push_cast at hjx e1
        · linarith
        · linarith
        · linarith
        · right; linarith
  · have hv : ∃ (i v : Nat), [m0, m1, m2][i]? = some v ∧ w ≤ v ∧ n.location.y = 90 + 35 * (v : Rat) := by
      rcases hv with ⟨-, hv⟩ | ⟨-, i, v, h1, h2, h3⟩
      · rw [hv] at g1; norm_num at g1
      · exact ⟨i, v, h1, h2, h3⟩
    obtain ⟨i, v, -, hwv, hy⟩ := hv
    have hwv : (w : Rat) ≤ v := by exact_mod_cast hwv
    rcases three_idx hk with ⟨rfl, rfl⟩ | ⟨rfl, rfl⟩ | ⟨rfl, rfl⟩
    · exact .inr (.inr (.inl ⟨ho, by push_cast at hx; linarith, by linarith⟩))
    · linarith
    · exact .inr (.inr (.inr (.inl ⟨ho, by push_cast at hx; linarith, by linarith⟩)))
  · rcases he with ⟨ho, hx, y1, y2, hs⟩ | ⟨ho, hx, y1, y2, hs⟩ | ⟨ho, hl, -⟩ | ⟨ho, hl, -⟩
    · rcases three_idx hk with ⟨rfl, rfl⟩ | ⟨rfl, rfl⟩ | ⟨rfl, rfl⟩
      · exact .inr (.inr (.inr (.inr (.inl ⟨.inl ⟨ho, by push_cast at hx; linarith⟩, hs, y2⟩))))
      · exact absurd hs g3
      · exact .inr (.inr (.inr (.inr (.inr (.inl ⟨.inl ⟨ho, by push_cast at hx; linarith⟩, hs, y2⟩)))))
    · rcases three_idx hk with ⟨rfl, rfl⟩ | ⟨rfl, rfl⟩ | ⟨rfl, rfl⟩
      · exact .inr (.inr (.inr (.inr (.inl ⟨.inr ⟨ho, by push_cast at hx; linarith⟩, hs, y2⟩))))
      · exact absurd hs g3
      · exact .inr (.inr (.inr (.inr (.inr (.inl ⟨.inr ⟨ho, by push_cast at hx; linarith⟩, hs, y2⟩)))))
    · rw [hl] at g1; norm_num at g1
    · refine .inr (.inr (.inr (.inr (.inr (.inr ⟨ho, ?_⟩)))))
      rw [hl] at g2 ⊢
      rcases three_idx hk with ⟨rfl, rfl⟩ | ⟨rfl, rfl⟩ | ⟨rfl, rfl⟩
      · left; norm_num
      · exact absurd g2 (lt_irrefl _)
      · right; norm_num

/-- A crossing on the street at `x` on the way from an end to the left or to the right. -/
theorem street_place {ns : List Nat} (h : OneRow ns cs) {c : Point} {o : Orientation} (hc : (c, o) ∈ allEnds ns cs)
    (ho : o = .left ∨ o = .right) {i : Nat} {j : Point} (hj : j ∈ corners ns) (hx : j.x = 10 + 380 * (i : Rat)) (hs : Sees ns c o j) :
    (⟨⟨j.x, c.y⟩, none⟩ : RouteNodeData) ∈ places ns (allEnds ns cs) := by
  rw [mem_places]
  refine .inl ⟨rfl, mem_crossings.mpr ⟨street_not_close h i _ _ hx, .inr ⟨c, o, j, hc, hj, hs, ?_⟩⟩⟩
  rcases ho with rfl | rfl <;> rfl

theorem corner_place {ns : List Nat} (h : OneRow ns cs) {i : Nat} {j : Point} (hj : j ∈ corners ns) (hx : j.x = 10 + 380 * (i : Rat)) :
    (⟨j, none⟩ : RouteNodeData) ∈ places ns (allEnds ns cs) := by
  rw [mem_places]
  exact .inl ⟨rfl, mem_crossings.mpr ⟨street_not_close h i _ _ hx, .inl hj⟩⟩

theorem sees_left0 {y : Rat} : Sees [m0, m1, m2] ⟨50, y⟩ .left ⟨10, 10⟩ := by
  refine ⟨by norm_num, ?_⟩
  intro r hr _ hlt
  obtain ⟨k, w, hk, rfl⟩ := (mem_tableRects _ r).mp hr
  rcases three_idx hk with ⟨rfl, rfl⟩ | ⟨rfl, rfl⟩ | ⟨rfl, rfl⟩ <;> rw [tableRect_row _ (by omega)] at hlt <;> norm_num at hlt

theorem sees_right0 {y : Rat} : Sees [m0, m1, m2] ⟨350, y⟩ .right ⟨390, 10⟩ := by
  refine ⟨by norm_num, ?_⟩
  intro r hr _ hlt
  obtain ⟨k, w, hk, rfl⟩ := (mem_tableRects _ r).mp hr
  rcases three_idx hk with ⟨rfl, rfl⟩ | ⟨rfl, rfl⟩ | ⟨rfl, rfl⟩ <;> rw [tableRect_row _ (by omega)] at hlt ⊢ <;>
    first | (exfalso; norm_num at hlt; done) | norm_num

theorem sees_left2 {y : Rat} : Sees [m0, m1, m2] ⟨810, y⟩ .left ⟨770, 10⟩ := by
  refine ⟨by norm_num, ?_⟩
  intro r hr _ hlt
  obtain ⟨k, w, hk, rfl⟩ := (mem_tableRects _ r).mp hr
  rcases three_idx hk with ⟨rfl, rfl⟩ | ⟨rfl, rfl⟩ | ⟨rfl, rfl⟩ <;> rw [tableRect_row _ (by omega)] at hlt ⊢ <;>
    first | (exfalso; norm_num at hlt; done) | norm_num

theorem sees_right2 {y : Rat} : Sees [m0, m1, m2] ⟨1110, y⟩ .right ⟨1150, 10⟩ := by
  refine ⟨by norm_num, ?_⟩
  intro r hr _ hlt
  obtain ⟨k, w, hk, rfl⟩ := (mem_tableRects _ r).mp hr
  rcases three_idx hk with ⟨rfl, rfl⟩ | ⟨rfl, rfl⟩ | ⟨rfl, rfl⟩ <;> rw [tableRect_row _ (by omega)] at hlt <;> norm_num at hlt

/-- The ends of the first and of the third table, in plain numbers. -/
theorem sides0 {S : List (Point × Orientation)} {y : Rat} (h : HasSides S 0 y) : (⟨50, y⟩, .left) ∈ S ∧ (⟨350, y⟩, .right) ∈ S := by
  simpa [HasSides] using h

theorem sides2 {S : List (Point × Orientation)} {y : Rat} (h : HasSides S 2 y) : (⟨810, y⟩, .left) ∈ S ∧ (⟨1110, y⟩, .right) ∈ S := by
  obtain ⟨h1, h2⟩ := h
  norm_num at h1 h2
  exact ⟨h1, h2⟩

theorem base0_places (h : OneRow [m0, m1, m2] cs) {y : Rat} (hb : Base (allEnds [m0, m1, m2] cs) 0 m0 y) :
    (⟨⟨10, y⟩, none⟩ : RouteNodeData) ∈ places [m0, m1, m2] (allEnds [m0, m1, m2] cs) ∧
      (⟨⟨390, y⟩, none⟩ : RouteNodeData) ∈ places [m0, m1, m2] (allEnds [m0, m1, m2] cs) := by
  rcases hb with rfl | ⟨hs, -⟩
  · exact ⟨corner_place h (i := 0) (by simp [corners_three]) (by norm_num), corner_place h (i := 1) (by simp [corners_three]) (by norm_num)⟩
  · obtain ⟨h1, h2⟩ := sides0 hs
    exact ⟨street_place h h1 (.inl rfl) (i := 0) (j := ⟨10, 10⟩) (by simp [corners_three]) (by norm_num) sees_left0,
      street_place h h2 (.inr rfl) (i := 1) (j := ⟨390, 10⟩) (by simp [corners_three]) (by norm_num) sees_right0⟩

theorem base2_places (h : OneRow [m0, m1, m2] cs) {y : Rat} (hb : Base (allEnds [m0, m1, m2] cs) 2 m2 y) :
    (⟨⟨770, y⟩, none⟩ : RouteNodeData) ∈ places [m0, m1, m2] (allEnds [m0, m1, m2] cs) ∧
      (⟨⟨1150, y⟩, none⟩ : RouteNodeData) ∈ places [m0, m1, m2] (allEnds [m0, m1, m2] cs) := by
  rcases hb with rfl | ⟨hs, -⟩
  · exact ⟨corner_place h (i := 2) (by simp [corners_three]) (by norm_num), corner_place h (i := 3) (by simp [corners_three]) (by norm_num)⟩
  · obtain ⟨h1, h2⟩ := sides2 hs
    exact ⟨street_place h h1 (.inl rfl) (i := 2) (j := ⟨770, 10⟩) (by simp [corners_three]) (by norm_num) sees_left2,
      street_place h h2 (.inr rfl) (i := 3) (j := ⟨1150, 10⟩) (by simp [corners_three]) (by norm_num) sees_right2⟩

/-! ## The order of the places -/

/-- Right ends are listed before left ends. -/
theorem ends_order {ns : List Nat} (h : OneRow ns cs) (k : Nat) (y : Rat) :
    NoLater ((⟨350 + 380 * (k : Rat), y⟩, .right) : Point × Orientation) (⟨50 + 380 * (k : Rat), y⟩, .left) (allEnds ns cs) := by
  have same : ∀ {k' : Nat}, 50 + 380 * (k : Rat) = 50 + 380 * (k' : Rat) → k' = k := by
    intro k' he
    have : (k' : Rat) = k := by linarith
    exact_mod_cast this
  have key : ∀ r, ValidRef ns r →
      NoLater ((⟨350 + 380 * (k : Rat), y⟩, .right) : Point × Orientation) (⟨50 + 380 * (k : Rat), y⟩, .left) (endsOf ns r) := by
    intro r hr
    by_cases hmem : ((⟨50 + 380 * (k : Rat), y⟩, .left) : Point × Orientation) ∈ endsOf ns r
    · have hl : (⟨50 + 380 * (k : Rat), y⟩ : Point) = sideMiddle (refRect ns r) .left := by
        simp only [endsOf, List.mem_map, Prod.mk.injEq] at hmem
        obtain ⟨o, -, h1, rfl⟩ := hmem
        exact h1.symm
      have hr' : (⟨350 + 380 * (k : Rat), y⟩ : Point) = sideMiddle (refRect ns r) .right := by
        cases r with
        | table k' =>
          obtain ⟨n, hn⟩ := hr
          simp only [refRect, hn, Option.getD_some, tableRect_row ns (h.lt hn), sideMiddle, Point.mk.injEq] at hl ⊢
          obtain rfl := same hl.1
          exact ⟨by ring, hl.2⟩
        | column k' j =>
          obtain ⟨n, hn, -⟩ := hr
          simp only [refRect, lineRect_row ns (h.lt hn), sideMiddle, Point.mk.injEq] at hl ⊢
          obtain rfl := same hl.1
          exact ⟨by ring, hl.2⟩
      rw [hl, hr']
      cases r with
      | table k' =>
        have e : endsOf ns (.table k') = [(sideMiddle (refRect ns (.table k')) .up, .up), (sideMiddle (refRect ns (.table k')) .right, .right)] ++
            [(sideMiddle (refRect ns (.table k')) .down, .down), (sideMiddle (refRect ns (.table k')) .left, .left)] := rfl
        rw [e]
        exact .first (by simp) (by simp)
      | column k' j =>
        unfold endsOf sidesOf
        simp only
        split
        · exact NoLater.first (α := Point × Orientation) (l := [(sideMiddle (refRect ns (.column k' j)) .right, .right)]) (by simp) (by simp)
        · exact NoLater.first (α := Point × Orientation) (l := [(sideMiddle (refRect ns (.column k' j)) .right, .right)]) (by simp) (by simp)
    · exact .absent hmem
  unfold allEnds
  exact .flatMap fun c hc => (key _ (h.valid c hc).1).append (key _ (h.valid c hc).2)

theorem places_order {ns : List Nat} {es : List (Point × Orientation)} {p q : Point} (hp : ¬ CloseToTable ns p)
    (h : NoLater p q (corners ns ++ es.flatMap fun e =>
      ((corners ns).filter fun j => @decide (Sees ns e.1 e.2 j) (Classical.propDecidable _)).map (crossingAt e.1 e.2))) :
    NoLater (⟨p, none⟩ : RouteNodeData) ⟨q, none⟩ (places ns es) := by
  unfold places crossings
  apply NoLater.eraseDups
  apply NoLater.append
  · exact (h.filter (by simpa using hp)).map (f := fun p => (⟨p, none⟩ : RouteNodeData)) (by intro x hx; simpa using hx)
  · exact .absent (by simp)

/-- Crossings are listed before ends. -/
theorem ends_last {ns : List Nat} {es : List (Point × Orientation)} {p : Point} (hp : (⟨p, none⟩ : RouteNodeData) ∈ places ns es)
    {m : RouteNodeData} {o : Orientation} (ho : m.orientation = some o) : NoLater (⟨p, none⟩ : RouteNodeData) m (places ns es) := by
  have hc : p ∈ crossings ns es := by
    rcases mem_places.mp hp with ⟨-, h⟩ | ⟨o, ho, -⟩
    · exact h
    · cases ho
  unfold places
  apply NoLater.eraseDups
  refine .first (List.mem_map.mpr ⟨p, hc, rfl⟩) ?_
  intro hm
  obtain ⟨x, -, rfl⟩ := List.mem_map.mp hm
  cases ho

/-- Corners are listed before other crossings. -/
theorem corners_first {ns : List Nat} {es : List (Point × Orientation)} {p q : Point} (hp : ¬ CloseToTable ns p)
    (hc : p ∈ corners ns) (hq : q ∉ corners ns) : NoLater (⟨p, none⟩ : RouteNodeData) ⟨q, none⟩ (places ns es) :=
  places_order hp (.first hc hq)

/-- On the left, the crossing nearer to the second table is listed first. -/
theorem order0 (h : OneRow [m0, m1, m2] cs) {y : Rat} (hg : Gap m0 m1 m2 cs y) (hb : Base (allEnds [m0, m1, m2] cs) 0 m0 y) :
    NoLater (⟨⟨390, y⟩, none⟩ : RouteNodeData) ⟨⟨10, y⟩, none⟩ (places [m0, m1, m2] (allEnds [m0, m1, m2] cs)) := by
  obtain ⟨g1, g2, g3⟩ := hg
  apply places_order (street_not_close h 1 _ _ (by norm_num))
  rcases hb with rfl | ⟨hs, hlt⟩
  · rw [corners_three]
    refine NoLater.first (α := Point) (l := [⟨10, 10⟩, ⟨390, 10⟩, ⟨390, 90 + 35 * (m0 : Rat)⟩]) (by simp) ?_
    simp
    linarith
  · apply NoLater.append
    · apply NoLater.absent
      simp only [corners_three, List.mem_cons, Point.mk.injEq, List.not_mem_nil, or_false]
      rintro (⟨-, he⟩ | ⟨he, -⟩ | ⟨he, -⟩ | ⟨-, he⟩ | ⟨he, -⟩ | ⟨he, -⟩ | ⟨he, -⟩ | ⟨he, -⟩ | ⟨he, -⟩ | ⟨he, -⟩ | ⟨he, -⟩ | ⟨he, -⟩) <;> linarith
    · have hord := ends_order h 0 y
      simp only [Nat.cast_zero, mul_zero, add_zero] at hord
      refine hord.source (by simp) ?_ ?_
      · rintro ⟨c, o⟩ hc hm
        simp only [List.mem_map, List.mem_filter, decide_eq_true_eq] at hm
        obtain ⟨j, ⟨hj, hsee⟩, hcr⟩ := hm
        obtain ⟨k, w, hk, he⟩ := allEnds_cases h hc
        obtain ⟨cx, cy⟩ := c
        have hk0 : (0 : Rat) ≤ k := by exact_mod_cast Nat.zero_le k
        cases o
        · exfalso
          simp only [Point.mk.injEq] at he
          simp only [crossingAt, Point.mk.injEq] at hcr
          linarith [he.1.1, hcr.1]
        · exfalso
          simp only [Point.mk.injEq] at he
          simp only [crossingAt, Point.mk.injEq] at hcr
          linarith [he.1, hcr.1]
        · simp only [crossingAt, Point.mk.injEq] at hcr he
          obtain ⟨hjx, rfl⟩ := hcr
          obtain ⟨hcx, -, hy2, hmate⟩ := he
          have hs' : HasSides (allEnds [m0, m1, m2] cs) k cy := ⟨hcx ▸ hc, hmate⟩
          rcases three_idx hk with ⟨rfl, rfl⟩ | ⟨rfl, rfl⟩ | ⟨rfl, rfl⟩
          · simp at hcx
            rw [hcx]
          · exact absurd hs' g3
          · exfalso
            have := hsee.2 _ ((mem_tableRects _ _).mpr ⟨1, m1, rfl, rfl⟩) (atHeight_row h rfl g1 g2)
            rw [tableRect_row _ (by omega)] at this
            simp only [hcx] at this
            push_cast at this
            have := this (by norm_num)
            linarith
        · exfalso
          simp only [crossingAt, Point.mk.injEq] at hcr he
          have := hsee.1
          simp only at this
          linarith [he.1, hcr.1]
      · simp only [List.mem_map, List.mem_filter, decide_eq_true_eq]
        exact ⟨⟨390, 10⟩, ⟨by simp [corners_three], sees_right0⟩, rfl⟩

/-- On the right, the crossing farther from the second table is listed first. -/
theorem order2 (h : OneRow [m0, m1, m2] cs) {y : Rat} (hg : Gap m0 m1 m2 cs y) (hb : Base (allEnds [m0, m1, m2] cs) 2 m2 y) :
    NoLater (⟨⟨1150, y⟩, none⟩ : RouteNodeData) ⟨⟨770, y⟩, none⟩ (places [m0, m1, m2] (allEnds [m0, m1, m2] cs)) := by
  obtain ⟨g1, g2, g3⟩ := hg
  apply places_order (street_not_close h 3 _ _ (by norm_num))
  rcases hb with rfl | ⟨hs, hlt⟩
  · rw [corners_three]
    refine NoLater.first (α := Point) (l := [⟨10, 10⟩, ⟨390, 10⟩, ⟨390, 90 + 35 * (m0 : Rat)⟩, ⟨10, 90 + 35 * (m0 : Rat)⟩,
      ⟨390, 10⟩, ⟨770, 10⟩, ⟨770, 90 + 35 * (m1 : Rat)⟩, ⟨390, 90 + 35 * (m1 : Rat)⟩,
      ⟨770, 10⟩, ⟨1150, 10⟩, ⟨1150, 90 + 35 * (m2 : Rat)⟩]) (by simp) ?_
    simp only [List.mem_cons, Point.mk.injEq, List.not_mem_nil, or_false]
    rintro (⟨he, -⟩ | ⟨he, -⟩ | ⟨he, -⟩ | ⟨he, -⟩ | ⟨he, -⟩ | ⟨-, he⟩ | ⟨-, he⟩ | ⟨he, -⟩ | ⟨-, he⟩ | ⟨he, -⟩ | ⟨he, -⟩) <;> linarith
  · apply NoLater.append
    · apply NoLater.absent
      simp only [corners_three, List.mem_cons, Point.mk.injEq, List.not_mem_nil, or_false]
      rintro (⟨he, -⟩ | ⟨he, -⟩ | ⟨he, -⟩ | ⟨he, -⟩ | ⟨he, -⟩ | ⟨-, he⟩ | ⟨-, he⟩ | ⟨he, -⟩ | ⟨-, he⟩ | ⟨he, -⟩ | ⟨he, -⟩ | ⟨-, he⟩) <;> linarith
    · have hord := ends_order h 2 y
      have e1 : (350 : Rat) + 380 * ((2 : Nat) : Rat) = 1110 := by norm_num
      have e2 : (50 : Rat) + 380 * ((2 : Nat) : Rat) = 810 := by norm_num
      rw [e1, e2] at hord
      refine hord.source (by simp) ?_ ?_
      · rintro ⟨c, o⟩ hc hm
        simp only [List.mem_map, List.mem_filter, decide_eq_true_eq] at hm
        obtain ⟨j, ⟨hj, hsee⟩, hcr⟩ := hm
        obtain ⟨k, w, hk, he⟩ := allEnds_cases h hc
        obtain ⟨cx, cy⟩ := c
        cases o
        · exfalso
          simp only [Point.mk.injEq] at he
          simp only [crossingAt, Point.mk.injEq] at hcr
          rcases three_idx hk with ⟨rfl, -⟩ | ⟨rfl, -⟩ | ⟨rfl, -⟩ <;> push_cast at he <;> linarith [he.1.1, hcr.1]
        · exfalso
          simp only [Point.mk.injEq] at he
          simp only [crossingAt, Point.mk.injEq] at hcr
          rcases three_idx hk with ⟨rfl, -⟩ | ⟨rfl, -⟩ | ⟨rfl, -⟩ <;> push_cast at he <;> linarith [he.1, hcr.1]
        · simp only [crossingAt, Point.mk.injEq] at hcr he
          obtain ⟨hjx, rfl⟩ := hcr
          obtain ⟨hcx, -, hy2, hmate⟩ := he
          have hs' : HasSides (allEnds [m0, m1, m2] cs) k cy := ⟨hcx ▸ hc, hmate⟩
          rcases three_idx hk with ⟨rfl, rfl⟩ | ⟨rfl, rfl⟩ | ⟨rfl, rfl⟩
          · exfalso
            have := hsee.1
            simp only [hcx] at this
            push_cast at this
            linarith
          · exact absurd hs' g3
          · rw [e2] at hcx
            rw [hcx]
        · exfalso
          simp only [crossingAt, Point.mk.injEq] at hcr he
          obtain ⟨hjx, rfl⟩ := hcr
          obtain ⟨hcx, -, hy2, hmate⟩ := he
          have hs' : HasSides (allEnds [m0, m1, m2] cs) k cy := ⟨hmate, hcx ▸ hc⟩
          rcases three_idx hk with ⟨rfl, rfl⟩ | ⟨rfl, rfl⟩ | ⟨rfl, rfl⟩
          · have := hsee.2 _ ((mem_tableRects _ _).mpr ⟨1, m1, rfl, rfl⟩) (atHeight_row h rfl g1 g2)
            rw [tableRect_row _ (by omega)] at this
            simp only [hcx] at this
            push_cast at this
            have := this (by norm_num)
            linarith
          · exact absurd hs' g3
          · have := hsee.1
            simp only [hcx] at this
            push_cast at this
            linarith
      · simp only [List.mem_map, List.mem_filter, decide_eq_true_eq]
        exact ⟨⟨1150, 10⟩, ⟨by simp [corners_three], sees_right2⟩, rfl⟩

/-! ## Roads through the second table -/

theorem meets_passes {ns : List Nat} {k w : Nat} (hk : k < 3) {p q : Point} (hy : q.y = p.y) (hx : p.x < q.x)
    (h : Meets (inside (tableRect ns k w)) p q) : PassesAt k w p.x q.x p.y := by
  obtain ⟨t, t0, t1, h1, h2, h3, h4⟩ := h
  rw [tableRect_row ns hk] at h1 h2 h3 h4
  simp only [inside, lerp, hy] at h1 h2 h3 h4
  have a1 : 0 ≤ t * (q.x - p.x) := mul_nonneg t0 (by linarith)
  have a2 : 0 ≤ (1 - t) * (q.x - p.x) := mul_nonneg (by linarith) (by linarith)
  refine ⟨by linarith, by linarith, by linarith, by linarith⟩

theorem free_right {ns : List Nat} (h : OneRow ns cs) {p q : Point} (hy : q.y = p.y) (hx : p.x < q.x)
    (hf : ∀ k w, ns[k]? = some w → ¬ PassesAt k w p.x q.x p.y) : ¬ Obstructed ns .right p q := by
  rintro ⟨-, r, hr, hm⟩
  obtain ⟨k, w, hk, rfl⟩ := (mem_tableRects ns r).mp hr
  exact hf k w hk (meets_passes (h.lt hk) hy hx hm)

theorem free_left {ns : List Nat} (h : OneRow ns cs) {p q : Point} (hy : q.y = p.y) (hx : q.x < p.x)
    (hf : ∀ k w, ns[k]? = some w → ¬ PassesAt k w q.x p.x q.y) : ¬ Obstructed ns .left p q := by
  rintro ⟨-, r, hr, hm⟩
  obtain ⟨k, w, hk, rfl⟩ := (mem_tableRects ns r).mp hr
  exact hf k w hk (meets_passes (h.lt hk) hy.symm hx ((meets_swap _ _ _).mp hm))

/-- A road to the right does not pass over a place from which nothing is in the way. -/
theorem not_over_right {ns : List Nat} (h : OneRow ns cs) {a b : Nat} {n m p : RouteNodeData}
    (hr : NeighbourIn ns (places ns (allEnds ns cs)) .right a b) (hn : (places ns (allEnds ns cs))[a]? = some n)
    (hm : (places ns (allEnds ns cs))[b]? = some m) (hp : p ∈ places ns (allEnds ns cs)) (ho : Open .left p)
    (hy : p.location.y = n.location.y) (h1 : n.location.x < p.location.x) (h2 : p.location.x < m.location.x)
    (hf : ∀ k w, ns[k]? = some w → ¬ PassesAt k w n.location.x p.location.x n.location.y) : False := by
  obtain ⟨ht, ho1, ho2⟩ := neighbour_ahead hr hn hm
  have hle := neighbour_le hr hn hm hp ⟨⟨hy, h1⟩, ho1, ho⟩ (free_right h hy h1 hf)
  simp only [distance, ht.1, hy, sub_self, abs_zero] at hle
  rw [abs_of_neg (by linarith), abs_of_neg (by linarith)] at hle
  linarith

theorem not_over_left {ns : List Nat} (h : OneRow ns cs) {a b : Nat} {n m p : RouteNodeData}
    (hr : NeighbourIn ns (places ns (allEnds ns cs)) .left a b) (hn : (places ns (allEnds ns cs))[a]? = some n)
    (hm : (places ns (allEnds ns cs))[b]? = some m) (hp : p ∈ places ns (allEnds ns cs)) (ho : Open .right p)
    (hy : p.location.y = n.location.y) (h1 : p.location.x < n.location.x) (h2 : m.location.x < p.location.x)
    (hf : ∀ k w, ns[k]? = some w → ¬ PassesAt k w p.location.x n.location.x p.location.y) : False := by
  obtain ⟨ht, ho1, ho2⟩ := neighbour_ahead hr hn hm
  have hle := neighbour_le hr hn hm hp ⟨⟨hy, h1⟩, ho1, ho⟩ (free_left h hy h1 hf)
  simp only [distance, ht.1, hy, sub_self, abs_zero] at hle
  rw [abs_of_pos (by linarith), abs_of_pos (by linarith)] at hle
  linarith

/-- The last crossing before the second table. -/
def LStar (m0 m1 m2 : Nat) (cs : List (NodeRef × NodeRef)) (y : Rat) (u : RouteNodeData) : Prop :=
  u.orientation = none ∧ u.location.y = y ∧ (u.location.x = 390 ∨
    u.location.x = 200 ∧ 50 + 35 * (m0 : Rat) < y ∧ (⟨⟨390, y⟩, none⟩ : RouteNodeData) ∉ places [m0, m1, m2] (allEnds [m0, m1, m2] cs))

/-- The first crossing after the second table. -/
def RStar (m0 m1 m2 : Nat) (cs : List (NodeRef × NodeRef)) (y : Rat) (v : RouteNodeData) : Prop :=
  v.orientation = none ∧ v.location.y = y ∧ (v.location.x = 770 ∨
    v.location.x = 960 ∧ 50 + 35 * (m2 : Rat) < y ∧ (⟨⟨770, y⟩, none⟩ : RouteNodeData) ∉ places [m0, m1, m2] (allEnds [m0, m1, m2] cs))

theorem rnd_eq {n : RouteNodeData} {x y : Rat} {o : Option Orientation} (ho : n.orientation = o) (hx : n.location.x = x)
    (hy : n.location.y = y) : n = ⟨⟨x, y⟩, o⟩ := by
  obtain ⟨⟨a, b⟩, c⟩ := n
  simp only at ho hx hy
  subst ho hx hy
  rfl

theorem eligible_first {ns : List Nat} {pl : List RouteNodeData} {d : Orientation} {a b : Nat} {n m : RouteNodeData}
    (h : NeighbourIn ns pl d a b) (hn : pl[a]? = some n) (hm : pl[b]? = some m) (hob : Obstructed ns d n.location m.location) :
    ∀ c k, pl[c]? = some k → Ahead d n k → b ≤ c := by
  obtain ⟨n', m', hn', hm', ⟨m'', hm'', -, he⟩, -⟩ := h
  rw [hn] at hn'
  rw [hm] at hm' hm''
  cases hn'
  cases hm'
  cases hm''
  rcases he with he | he
  · exact absurd hob he
  · exact he

theorem not_open {d o : Orientation} {n : RouteNodeData} (h : Open d n) (ho : n.orientation = some o) (hne : o ≠ d) : False := by
  rcases h with h | h <;> rw [ho] at h <;> cases h
  exact hne rfl

theorem cross_right (h : OneRow [m0, m1, m2] cs) {a b : Nat} {u v : RouteNodeData}
    (hr : NeighbourIn [m0, m1, m2] (places [m0, m1, m2] (allEnds [m0, m1, m2] cs)) .right a b)
    (hu : (places [m0, m1, m2] (allEnds [m0, m1, m2] cs))[a]? = some u)
    (hv : (places [m0, m1, m2] (allEnds [m0, m1, m2] cs))[b]? = some v) {k w : Nat} (hk : [m0, m1, m2][k]? = some w)
    (hc : PassesAt k w u.location.x v.location.x u.location.y) :
    Gap m0 m1 m2 cs u.location.y ∧ LStar m0 m1 m2 cs u.location.y u ∧
      (v.orientation = none ∧ v.location.y = u.location.y ∧ v.location.x = 1150 ∨ RStar m0 m1 m2 cs u.location.y v) := by
  obtain ⟨ht, ho1, ho2⟩ := neighbour_ahead hr hu hv
  have hum := List.mem_of_getElem? hu
  have hvm := List.mem_of_getElem? hv
  obtain ⟨hyv, hxv⟩ := ht
  have hno0 : ¬ PassesAt 0 m0 u.location.x v.location.x u.location.y := by
    intro hp
    obtain ⟨hs, hx⟩ := first_end h hum ho1 (m := m0) rfl hp.2.2.1 hp.2.2.2 (by simpa using hp.1)
    exact no_road_right h hr hu hv hp (fun j v' hj hij => absurd hij (Nat.not_lt_zero j)) (by simpa using hx) hs
  have h1 : PassesAt 1 m1 u.location.x v.location.x u.location.y := by
    rcases three_idx hk with ⟨rfl, rfl⟩ | ⟨rfl, rfl⟩ | ⟨rfl, rfl⟩
    · exact absurd hc hno0
    · exact hc
    · by_contra hno1
      obtain ⟨c1, c2, c3, c4⟩ := hc
      obtain ⟨hs, hx⟩ := last_end h hvm ho2 (k := 2) (m := w) rfl rfl (by rw [hyv]; exact c3) (by rw [hyv]; exact c4) c2
      rw [hyv] at hs
      refine no_road_right h hr hu hv (k := 2) (w := w) ⟨c1, c2, c3, c4⟩ ?_ ?_ hs
      · intro i v' hi hlt
        rcases three_idx hi with ⟨rfl, rfl⟩ | ⟨rfl, rfl⟩ | ⟨rfl, rfl⟩
        · exact hno0
        · exact hno1
        · omega
      · by_contra hge
        push Not at hge
        rcases inside_place h hum (k := 2) (m := w) rfl c3 c4 hge c1.le with ⟨⟨h1, -⟩ | ⟨-, h1⟩, -⟩
        · exact not_open ho1 h1 (by simp)
        · linarith
  obtain ⟨c1, c2, c3, c4⟩ := h1
  have hux : u.location.x < 430 := by
    by_contra hge
    push Not at hge
    rcases inside_place h hum (k := 1) (m := m1) rfl c3 c4 (by push_cast; linarith) c1.le with ⟨⟨h1, -⟩ | ⟨-, h1⟩, -⟩
    · exact not_open ho1 h1 (by simp)
    · linarith
  have hg : Gap m0 m1 m2 cs u.location.y := by
    refine ⟨c3, c4, fun hs => ?_⟩
    refine no_road_right h hr hu hv (k := 1) (w := m1) ⟨c1, c2, c3, c4⟩ ?_ (by push_cast; linarith) hs
    intro i v' hi hlt
    rcases three_idx hi with ⟨rfl, rfl⟩ | ⟨rfl, rfl⟩ | ⟨rfl, rfl⟩
    · exact hno0
    · omega
    · omega
  push_cast at c1 c2
  have hvx : 430 < v.location.x := by linarith
  have hob : Obstructed [m0, m1, m2] .right u.location v.location :=
    ⟨by simp, _, (mem_tableRects _ _).mpr ⟨1, m1, rfl, rfl⟩,
      passes_meets h hum hvm hyv hxv (k := 1) (w := m1) rfl ⟨by push_cast; linarith, by push_cast; linarith, c3, c4⟩⟩
  have hfirst := eligible_first hr hu hv hob
  -- a crossing at 390 would be nearer
  have over390 : (⟨⟨390, u.location.y⟩, none⟩ : RouteNodeData) ∈ places [m0, m1, m2] (allEnds [m0, m1, m2] cs) → u.location.x < 390 →
      False := by
    intro hp hlt
    refine not_over_right h hr hu hv hp (.inl rfl) rfl hlt (by simp only; linarith) ?_
    rintro k w hk ⟨d1, d2, d3, d4⟩
    rcases three_idx hk with ⟨rfl, rfl⟩ | ⟨rfl, rfl⟩ | ⟨rfl, rfl⟩
    · exact hno0 ⟨d1, by push_cast at d2 ⊢; linarith, d3, d4⟩
    · push_cast at d2; linarith
    · push_cast at d2; linarith
  refine ⟨hg, ?_, ?_⟩
  · rcases row_cases h hum hg with ⟨ho, hx, hb⟩ | ⟨ho, hx, hb⟩ | ⟨ho, hx, hb⟩ | ⟨ho, hx, hb⟩ | ⟨hx, hb, hlt⟩ | ⟨hx, hb⟩ | ⟨ho, hx⟩
    · rcases hx with hx | hx
      · exact (over390 (base0_places h hb).2 (by linarith)).elim
      · exact ⟨ho, rfl, .inl hx⟩
    · rcases hx with hx | hx <;> linarith
    · exact ⟨ho, rfl, .inr ⟨hx, hb, fun hp => over390 hp (by linarith)⟩⟩
    · linarith
    · exact (over390 (base0_places h (.inr ⟨hb, hlt⟩)).2 (by rcases hx with ⟨-, hx⟩ | ⟨-, hx⟩ <;> linarith)).elim
    · rcases hx with ⟨-, hx⟩ | ⟨-, hx⟩ <;> linarith
    · exact (not_open ho1 ho (by simp)).elim
  · have hg' := hg
    rw [← hyv] at hg'
    have ahead : ∀ {p : RouteNodeData}, p.orientation = none → p.location.y = u.location.y → 430 < p.location.x → Ahead .right u p :=
      fun h1 h2 h3 => ⟨⟨h2, by linarith⟩, ho1, .inl h1⟩
    rcases row_cases h hvm hg' with ⟨ho, hx, hb⟩ | ⟨ho, hx, hb⟩ | ⟨ho, hx, hb⟩ | ⟨ho, hx, hb⟩ | ⟨hx, hb⟩ | ⟨hx, hb, hlt⟩ | ⟨ho, hx⟩
    · rcases hx with hx | hx <;> linarith
    · rcases hx with hx | hx
      · have hno := order2 h hg' hb
        rw [← rnd_eq ho hx rfl] at hno
        refine (hno.not_first ?_ hv (ahead rfl hyv (by norm_num)) hfirst).elim
        intro he
        rw [← he] at hx
        norm_num at hx
      · exact .inl ⟨ho, hyv, hx⟩
    · linarith
    · refine .inr ⟨ho, hyv, .inr ⟨hx, by rw [← hyv]; exact hb, ?_⟩⟩
      intro hp
      rw [← hyv] at hp
      rcases row_cases h hp hg' with ⟨-, hx', -⟩ | ⟨-, -, hb'⟩ | ⟨-, hx', -⟩ | ⟨-, hx', -⟩ | ⟨⟨hx', -⟩ | ⟨hx', -⟩, -⟩ |
          ⟨⟨hx', -⟩ | ⟨hx', -⟩, -⟩ | ⟨hx', -⟩
      · norm_num at hx'
      · have hy : v.location.y = 90 + 35 * (m2 : Rat) := by
          rcases hb' with hb' | ⟨-, hb'⟩
          · exact hb'
          · simp only at hb'; linarith
        have hno := corners_first (ns := [m0, m1, m2]) (es := allEnds [m0, m1, m2] cs) (p := ⟨1150, v.location.y⟩) (q := v.location)
          (street_not_close h 3 _ _ (by norm_num)) (by rw [hy]; simp [corners_three]) (by
            simp only [corners_three, List.mem_cons, List.not_mem_nil, or_false]
            intro hc
            have : v.location.x ≠ 960 := by
              rcases hc with hc | hc | hc | hc | hc | hc | hc | hc | hc | hc | hc | hc <;> rw [hc] <;> norm_num
            exact this hx)
        have ev : (⟨v.location, none⟩ : RouteNodeData) = v := by rw [← ho]
        rw [ev] at hno
        refine hno.not_first ?_ hv (ahead rfl hyv (by norm_num)) hfirst
        intro he
        rw [← he] at hx
        norm_num at hx
      · norm_num at hx'
      · norm_num at hx'
      · cases hx'
      · cases hx'
      · cases hx'
      · cases hx'
      · cases hx'
    · rcases hx with ⟨-, hx⟩ | ⟨-, hx⟩ <;> linarith
    · have hp := (base2_places h (.inr ⟨hb, hlt⟩)).2
      rcases hx with ⟨ho, hx⟩ | ⟨ho, hx⟩
      · refine ((ends_last hp ho).not_first ?_ hv (ahead rfl hyv (by norm_num)) hfirst).elim
        intro he
        rw [← he] at ho
        cases ho
      · exact (not_open ho2 ho (by simp [opposite])).elim
    · exact (not_open ho2 ho (by simp [opposite])).elim

theorem cross_left (h : OneRow [m0, m1, m2] cs) {a b : Nat} {u v : RouteNodeData}
    (hr : NeighbourIn [m0, m1, m2] (places [m0, m1, m2] (allEnds [m0, m1, m2] cs)) .left a b)
    (hv : (places [m0, m1, m2] (allEnds [m0, m1, m2] cs))[a]? = some v)
    (hu : (places [m0, m1, m2] (allEnds [m0, m1, m2] cs))[b]? = some u) {k w : Nat} (hk : [m0, m1, m2][k]? = some w)
    (hc : PassesAt k w u.location.x v.location.x v.location.y) :
    Gap m0 m1 m2 cs v.location.y ∧ LStar m0 m1 m2 cs v.location.y u ∧ RStar m0 m1 m2 cs v.location.y v := by
  obtain ⟨ht, ho1, ho2⟩ := neighbour_ahead hr hv hu
  have hum := List.mem_of_getElem? hu
  have hvm := List.mem_of_getElem? hv
  obtain ⟨hyv, hxv⟩ := ht
  have hno2 : ¬ PassesAt 2 m2 u.location.x v.location.x v.location.y := by
    intro hp
    obtain ⟨hs, hx⟩ := last_end h hvm ho1 (k := 2) (m := m2) rfl rfl hp.2.2.1 hp.2.2.2 hp.2.1
    refine no_road_left h hr hv hu hp ?_ hx hs
    intro j v' hj hij
    rcases three_idx hj with ⟨rfl, rfl⟩ | ⟨rfl, rfl⟩ | ⟨rfl, rfl⟩ <;> omega
  have h1 : PassesAt 1 m1 u.location.x v.location.x v.location.y := by
    rcases three_idx hk with ⟨rfl, rfl⟩ | ⟨rfl, rfl⟩ | ⟨rfl, rfl⟩
    · by_contra hno1
      obtain ⟨c1, c2, c3, c4⟩ := hc
      obtain ⟨hs, hx⟩ := first_end h hum ho2 (m := w) rfl (by rw [hyv]; exact c3) (by rw [hyv]; exact c4) (by simpa using c1)
      rw [hyv] at hs
      refine no_road_left h hr hv hu (k := 0) (w := w) ⟨c1, c2, c3, c4⟩ ?_ ?_ hs
      · intro i v' hi hlt
        rcases three_idx hi with ⟨rfl, rfl⟩ | ⟨rfl, rfl⟩ | ⟨rfl, rfl⟩
        · omega
        · exact hno1
        · exact hno2
      · by_contra hge
        push Not at hge
        rcases inside_place h hvm (k := 0) (m := w) rfl c3 c4 c2.le hge with ⟨⟨-, h1⟩ | ⟨h1, -⟩, -⟩
        · linarith
        · exact not_open ho1 h1 (by simp)
    · exact hc
    · exact absurd hc hno2
  obtain ⟨c1, c2, c3, c4⟩ := h1
  have hvx : 730 < v.location.x := by
    by_contra hge
    push Not at hge
    rcases inside_place h hvm (k := 1) (m := m1) rfl c3 c4 c2.le (by push_cast; linarith) with ⟨⟨-, h1⟩ | ⟨h1, -⟩, -⟩
    · linarith
    · exact not_open ho1 h1 (by simp)
  have hg : Gap m0 m1 m2 cs v.location.y := by
    refine ⟨c3, c4, fun hs => ?_⟩
    refine no_road_left h hr hv hu (k := 1) (w := m1) ⟨c1, c2, c3, c4⟩ ?_ (by push_cast; linarith) hs
    intro i v' hi hlt
    rcases three_idx hi with ⟨rfl, rfl⟩ | ⟨rfl, rfl⟩ | ⟨rfl, rfl⟩
    · omega
    · omega
    · exact hno2
  push_cast at c1 c2
  have hux : u.location.x < 730 := by linarith
  have hob : Obstructed [m0, m1, m2] .left v.location u.location :=
    ⟨by simp, _, (mem_tableRects _ _).mpr ⟨1, m1, rfl, rfl⟩, (meets_swap _ _ _).mp
      (passes_meets h hum hvm hyv.symm hxv (k := 1) (w := m1) rfl ⟨by push_cast; linarith, by push_cast; linarith, by rw [hyv]; exact c3,
        by rw [hyv]; exact c4⟩)⟩
  have hfirst := eligible_first hr hv hu hob
  have over770 : (⟨⟨770, v.location.y⟩, none⟩ : RouteNodeData) ∈ places [m0, m1, m2] (allEnds [m0, m1, m2] cs) → 770 < v.location.x →
      False := by
    intro hp hlt
    refine not_over_left h hr hv hu hp (.inl rfl) rfl hlt (by simp only; linarith) ?_
    rintro k w hk ⟨d1, d2, d3, d4⟩
    rcases three_idx hk with ⟨rfl, rfl⟩ | ⟨rfl, rfl⟩ | ⟨rfl, rfl⟩
    · push_cast at d1; linarith
    · push_cast at d1; linarith
    · exact hno2 ⟨by push_cast at d1 ⊢; linarith, d2, d3, d4⟩
  refine ⟨hg, ?_, ?_⟩
  · have hg' := hg
    rw [← hyv] at hg'
    have ahead : ∀ {p : RouteNodeData}, p.orientation = none → p.location.y = v.location.y → p.location.x < 730 → Ahead .left v p :=
      fun h1 h2 h3 => ⟨⟨h2, by linarith⟩, ho1, .inl h1⟩
    rcases row_cases h hum hg' with ⟨ho, hx, hb⟩ | ⟨ho, hx, hb⟩ | ⟨ho, hx, hb⟩ | ⟨ho, hx, hb⟩ | ⟨hx, hb, hlt⟩ | ⟨hx, hb⟩ | ⟨ho, hx⟩
    · rcases hx with hx | hx
      · have hno := order0 h hg' hb
        rw [← rnd_eq ho hx rfl] at hno
        refine (hno.not_first ?_ hu (ahead rfl hyv (by norm_num)) hfirst).elim
        intro he
        rw [← he] at hx
        norm_num at hx
      · exact ⟨ho, hyv, .inl hx⟩
    · rcases hx with hx | hx <;> linarith
    · refine ⟨ho, hyv, .inr ⟨hx, by rw [← hyv]; exact hb, ?_⟩⟩
      intro hp
      rw [← hyv] at hp
      rcases row_cases h hp hg' with ⟨-, -, hb'⟩ | ⟨-, hx', -⟩ | ⟨-, hx', -⟩ | ⟨-, hx', -⟩ | ⟨⟨hx', -⟩ | ⟨hx', -⟩, -⟩ |
          ⟨⟨hx', -⟩ | ⟨hx', -⟩, -⟩ | ⟨hx', -⟩
      · have hy : u.location.y = 90 + 35 * (m0 : Rat) := by
          rcases hb' with hb' | ⟨-, hb'⟩
          · exact hb'
          · simp only at hb'; linarith
        have hno := corners_first (ns := [m0, m1, m2]) (es := allEnds [m0, m1, m2] cs) (p := ⟨390, u.location.y⟩) (q := u.location)
          (street_not_close h 1 _ _ (by norm_num)) (by rw [hy]; simp [corners_three]) (by
            simp only [corners_three, List.mem_cons, List.not_mem_nil, or_false]
            intro hc
            have : u.location.x ≠ 200 := by
              rcases hc with hc | hc | hc | hc | hc | hc | hc | hc | hc | hc | hc | hc <;> rw [hc] <;> norm_num
            exact this hx)
        have ev : (⟨u.location, none⟩ : RouteNodeData) = u := by rw [← ho]
        rw [ev] at hno
        refine hno.not_first ?_ hu (ahead rfl hyv (by norm_num)) hfirst
        intro he
        rw [← he] at hx
        norm_num at hx
      · norm_num at hx'
      · norm_num at hx'
      · norm_num at hx'
      · cases hx'
      · cases hx'
      · cases hx'
      · cases hx'
      · cases hx'
    · linarith
    · have hp := (base0_places h (.inr ⟨hb, hlt⟩)).2
      rcases hx with ⟨ho, hx⟩ | ⟨ho, hx⟩
      · exact (not_open ho2 ho (by simp [opposite])).elim
      · refine ((ends_last hp ho).not_first ?_ hu (ahead rfl hyv (by norm_num)) hfirst).elim
        intro he
        rw [← he] at ho
        cases ho
    · rcases hx with ⟨-, hx⟩ | ⟨-, hx⟩ <;> linarith
    · exact (not_open ho2 ho (by simp [opposite])).elim
  · rcases row_cases h hvm hg with ⟨ho, hx, hb⟩ | ⟨ho, hx, hb⟩ | ⟨ho, hx, hb⟩ | ⟨ho, hx, hb⟩ | ⟨hx, hb⟩ | ⟨hx, hb, hlt⟩ | ⟨ho, hx⟩
    · rcases hx with hx | hx <;> linarith
    · rcases hx with hx | hx
      · exact ⟨ho, rfl, .inl hx⟩
      · exact (over770 (base2_places h hb).1 (by linarith)).elim
    · linarith
    · exact ⟨ho, rfl, .inr ⟨hx, hb, fun hp => over770 hp (by linarith)⟩⟩
    · rcases hx with ⟨-, hx⟩ | ⟨-, hx⟩ <;> linarith
    · exact (over770 (base2_places h (.inr ⟨hb, hlt⟩)).1 (by rcases hx with ⟨-, hx⟩ | ⟨-, hx⟩ <;> linarith)).elim
    · exact (not_open ho1 ho (by simp)).elim

end

end Seiren
