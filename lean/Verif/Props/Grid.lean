import Verif.Proofs.GridColumns
import Verif.Props.ThreeTables
/-! # Modules with any number of tables

Where paths may pass through tables.  If no relation ends at the last column of a table, no path turns back, and so the module
is drawn, however many tables it has.  `C40_refuted` shows such a relation and a path that turns back. -/

namespace Seiren.Grid
open Spec

section
variable {ns : List Nat} {cs : List (NodeRef × NodeRef)}

local notation "PL" => places ns (allEnds ns cs)

theorem crosses_tab {i w : Nat} {p q : Point} (h : Crosses (tableRect ns i w) p q) :
    Crosses (tableRect ns (3 * (i / 3) + i % 3) w) p q := by
  rw [Nat.div_add_mod]
  exact h

/-- Between which places a road to the left or right passes through a table. -/
theorem crossing_road (h : Ok ns cs) {n m : RouteNodeData} (hr : RoadBetween ns PL n m) {i w : Nat} (hi : ns[i]? = some w)
    (hc : Crosses (tableRect ns i w) n.location m.location) (hx : n.location.x ≠ m.location.x) : ∃ y, Gap ns cs y ∧
      (LStar ns cs y n ∧ (m = ⟨⟨1150, y⟩, none⟩ ∨ RStar ns cs y m) ∨
        LStar ns cs y m ∧ (n = ⟨⟨1150, y⟩, none⟩ ∨ RStar ns cs y n)) := by
  have key : ∀ {n m : RouteNodeData} {a b : Nat} {d : Orientation}, (PL)[a]? = some n → (PL)[b]? = some m →
      NeighbourIn ns PL d a b → Crosses (tableRect ns i w) n.location m.location → n.location.x ≠ m.location.x → ∃ y, Gap ns cs y ∧
      (LStar ns cs y n ∧ (m = ⟨⟨1150, y⟩, none⟩ ∨ RStar ns cs y m) ∨ LStar ns cs y m ∧ RStar ns cs y n) := by
    intro n m a b d ha hb hd hc hx
    have ht := (neighbour_ahead hd ha hb).1
    have hk := tab_of hi
    have hc := crosses_tab hc
    cases d
    · exact absurd ht.1.symm hx
    · exact absurd ht.1.symm hx
    · obtain ⟨h1, h2, h3⟩ := cross_left h hd ha hb hk (crosses_left hk ht hc)
      exact ⟨_, h1, .inr ⟨h2, h3⟩⟩
    · obtain ⟨h1, h2, h3⟩ := cross_right h hd ha hb hk (crosses_right hk ht hc)
      refine ⟨_, h1, .inl ⟨h2, ?_⟩⟩
      rcases h3 with ⟨h3, h4, h5⟩ | h3
      · exact .inl (rnd_eq h3 h5 h4)
      · exact .inr h3
  obtain ⟨a, b, ha, hb, d, hd | hd⟩ := hr
  · obtain ⟨y, h1, h2 | ⟨h2, h3⟩⟩ := key ha hb hd hc hx
    · exact ⟨y, h1, .inl h2⟩
    · exact ⟨y, h1, .inr ⟨h2, .inr h3⟩⟩
  · obtain ⟨y, h1, h2 | ⟨h2, h3⟩⟩ := key hb ha hd (crosses_swap hc) hx.symm
    · exact ⟨y, h1, .inr h2⟩
    · exact ⟨y, h1, .inl ⟨h2, .inr h3⟩⟩

theorem star_shorter {y : Rat} {u : RouteNodeData} (hu : LStar ns cs y u) :
    segmentCost u.location ⟨770, y⟩ < segmentCost u.location ⟨1150, y⟩ := by
  obtain ⟨⟨ux, uy⟩, uo⟩ := u
  obtain ⟨-, hy, hx⟩ := hu
  simp only at hy hx ⊢
  subst hy
  rcases hx with rfl | ⟨rfl, -⟩ <;> rw [segmentCost_row (by norm_num), segmentCost_row (by norm_num)] <;> decide +kernel

/-- A shortest route does not pass from the first table to behind the third one in one go, nor back. -/
theorem no_long_road (h : Ok ns cs) {c : NodeRef × NodeRef} (hc : c ∈ cs) {ps : List Point} (hs : ShortestRoute ns cs c ps)
    {w : List Nat} (hf : Follows ns PL w ps) {k i j : Nat} {n m : RouteNodeData} (hi : w[k]? = some i) (hj : w[k + 1]? = some j)
    (hn : (PL)[i]? = some n) (hm : (PL)[j]? = some m) (ha : ps[k]? = some n.location) (hb : ps[k + 1]? = some m.location) {y : Rat}
    (hg : Gap ns cs y) : ¬ (LStar ns cs y n ∧ m = ⟨⟨1150, y⟩, none⟩) ∧ ¬ (LStar ns cs y m ∧ n = ⟨⟨1150, y⟩, none⟩) := by
  obtain ⟨⟨-, ⟨a, oa, hha, hae⟩, ⟨b, ob, hhb, hbe⟩⟩, hmin, -⟩ := hs
  obtain ⟨i', j', n', m', s, z, c1, c2, hi', hj', hn', hm', -, -, hroad, hps, hpz, t1, t2, hcost⟩ := follows_cut hf ha hb
  rw [hi] at hi'
  cases hi'
  rw [hj] at hj'
  cases hj'
  rw [hn] at hn'
  cases hn'
  rw [hm] at hm'
  cases hm'
  rw [hha, Option.some.injEq] at hps
  rw [hhb, Option.some.injEq] at hpz
  subst hps
  subst hpz
  obtain ⟨v1, v2⟩ := h.valid c hc
  obtain ⟨s1, s2⟩ := endsOf_allEnds (ns := ns) hc
  constructor
  · rintro ⟨hl, rfl⟩
    obtain ⟨z', c', h1, h2, h3⟩ := (mirror_trip h v2 s2 t2 ⟨_, hbe⟩).1 y rfl
    have hr := star_road h hg hl (r := ⟨⟨770, y⟩, none⟩) ⟨rfl, rfl, .inl rfl⟩ (List.mem_of_getElem? hn) h1.left
    obtain ⟨ps', hp1, hp2⟩ := trip_route (t1.append (.go hr.symm h1)) ⟨_, hae⟩ h3
    have h4 := hmin ps' hp1
    have h5 := star_shorter hl
    simp only at hcost hp2
    omega
  · rintro ⟨hl, rfl⟩
    obtain ⟨z', c', h1, h2, h3⟩ := (mirror_trip h v1 s1 t1.symm ⟨_, hae⟩).1 y rfl
    have hr := star_road h hg hl (r := ⟨⟨770, y⟩, none⟩) ⟨rfl, rfl, .inl rfl⟩ (List.mem_of_getElem? hm) h1.left
    obtain ⟨ps', hp1, hp2⟩ := trip_route (h1.symm.append (.go hr t2)) h3 ⟨_, hbe⟩
    have h4 := hmin ps' hp1
    have h5 := star_shorter hl
    rw [segmentCost_comm] at hcost hp2
    simp only at hcost hp2
    omega

/-- The next place beyond the second table. -/
theorem beyond_right (h : Ok ns cs) {y : Rat} (hg : Gap ns cs y) {u o : RouteNodeData} (hu : LStar ns cs y u)
    (hr : RoadBetween ns PL u o) (hx : u.location.x < o.location.x) : o = ⟨⟨1150, y⟩, none⟩ ∨ RStar ns cs y o := by
  obtain ⟨r1, w1, hm1, g1, g2, -⟩ := id hg
  have hum := hr.left
  have hom := hr.symm.left
  obtain ⟨a, b, ha, hb, d, hd⟩ := hr
  have hux : u.location.x < 430 := by rcases hu.2.2 with hx | ⟨hx, -⟩ <;> rw [hx] <;> norm_num
  have hor : NeighbourIn ns PL .right a b ∨ NeighbourIn ns PL .left b a := by
    rcases hd with hd | hd
    · have ht := (neighbour_ahead hd ha hb).1
      cases d
      · have := ht.1; linarith
      · have := ht.1; linarith
      · have := ht.2; linarith
      · exact .inl hd
    · have ht := (neighbour_ahead hd hb ha).1
      cases d
      · have := ht.1; linarith
      · have := ht.1; linarith
      · exact .inr hd
      · have := ht.2; linarith
  rcases hor with hd | hd
  · obtain ⟨hy, hox⟩ := right_of_lstar h hg hu hom (.inl (neighbour_ahead hd ha hb))
    obtain ⟨-, -, h3⟩ := cross_right h hd ha hb hm1
      ⟨by push_cast; linarith, by push_cast; linarith, by rw [hu.2.1]; exact g1, by rw [hu.2.1]; exact g2⟩
    rw [hu.2.1] at h3
    rcases h3 with ⟨h3, h4, h5⟩ | h3
    · exact .inl (rnd_eq h3 h5 h4)
    · exact .inr h3
  · obtain ⟨hy, hox⟩ := right_of_lstar h hg hu hom (.inr (neighbour_ahead hd hb ha))
    obtain ⟨-, -, h3⟩ := cross_left h hd hb ha hm1
      ⟨by push_cast; linarith, by push_cast; linarith, by rw [hy]; exact g1, by rw [hy]; exact g2⟩
    rw [hy] at h3
    exact .inr h3

theorem beyond_left (h : Ok ns cs) {y : Rat} (hg : Gap ns cs y) {r o : RouteNodeData} (hr : RStar ns cs y r)
    (hro : RoadBetween ns PL r o) (hx : o.location.x < r.location.x) : LStar ns cs y o := by
  obtain ⟨r1, w1, hm1, g1, g2, -⟩ := id hg
  have hrm := hro.left
  have hom := hro.symm.left
  obtain ⟨a, b, ha, hb, d, hd⟩ := hro
  have hrx : 730 < r.location.x := by rcases hr.2.2 with hx | ⟨hx, -⟩ <;> rw [hx] <;> norm_num
  have hor : NeighbourIn ns PL .left a b ∨ NeighbourIn ns PL .right b a := by
    rcases hd with hd | hd
    · have ht := (neighbour_ahead hd ha hb).1
      cases d
      · have := ht.1; linarith
      · have := ht.1; linarith
      · exact .inl hd
      · have := ht.2; linarith
    · have ht := (neighbour_ahead hd hb ha).1
      cases d
      · have := ht.1; linarith
      · have := ht.1; linarith
      · have := ht.2; linarith
      · exact .inr hd
  rcases hor with hd | hd
  · obtain ⟨hy, hox⟩ := left_of_rstar h hg hr hom (.inl (neighbour_ahead hd ha hb))
    obtain ⟨-, h3, -⟩ := cross_left h hd ha hb hm1
      ⟨by push_cast; linarith, by push_cast; linarith, by rw [hr.2.1]; exact g1, by rw [hr.2.1]; exact g2⟩
    rw [hr.2.1] at h3
    exact h3
  · obtain ⟨hy, hox⟩ := left_of_rstar h hg hr hom (.inr (neighbour_ahead hd hb ha))
    obtain ⟨-, h3, -⟩ := cross_right h hd hb ha hm1
      ⟨by push_cast; linarith, by push_cast; linarith, by rw [hy]; exact g1, by rw [hy]; exact g2⟩
    rw [hy] at h3
    exact h3

/-- Turning back at a road through a table leads to where the road came from. -/
theorem turn_same (h : Ok ns cs) {y : Rat} (hg : Gap ns cs y) {n m o : RouteNodeData} (hn : n ∈ PL)
    (hnm : LStar ns cs y n ∧ RStar ns cs y m ∨ LStar ns cs y m ∧ RStar ns cs y n)
    (hmo : RoadBetween ns PL m o) (hlong : ¬ (LStar ns cs y m ∧ o = ⟨⟨1150, y⟩, none⟩)) {d : Orientation}
    (h1 : Heads d n.location m.location) (h2 : Heads (opposite d) m.location o.location) : n = o := by
  rcases hnm with ⟨hl, hr⟩ | ⟨hl, hr⟩
  · have hlt : Heads .right n.location m.location := by
      simp only [Heads]
      rcases hl.2.2 with hx | ⟨hx, -⟩ <;> rcases hr.2.2 with hx' | ⟨hx', -⟩ <;> rw [hx, hx'] <;> norm_num
    have hd := heads_unique h1 hlt
    subst hd
    exact hl.unique (beyond_left h hg hr hmo h2) hn hmo.symm.left
  · have hlt : Heads .left n.location m.location := by
      simp only [Heads]
      rcases hl.2.2 with hx | ⟨hx, -⟩ <;> rcases hr.2.2 with hx' | ⟨hx', -⟩ <;> rw [hx, hx'] <;> norm_num
    have hd := heads_unique h1 hlt
    subst hd
    rcases beyond_right h hg hl hmo h2 with ho | ho
    · exact absurd ⟨hl, ho⟩ hlong
    · exact hr.unique ho hn hmo.symm.left

/-- A shortest route that turns back to the left or right, at a road through a table, returns to the same point. -/
theorem side_turn (h : Ok ns cs) {c : NodeRef × NodeRef} (hc : c ∈ cs) {ps : List Point} (hs : ShortestRoute ns cs c ps)
    {k : Nat} {p q r : Point} {d : Orientation} (hp : ps[k]? = some p) (hq : ps[k + 1]? = some q) (hr : ps[k + 2]? = some r)
    (h1 : Heads d p q) (h2 : Heads (opposite d) q r) (hd : d = .left ∨ d = .right) {i w : Nat} (hi : ns[i]? = some w)
    (hcr : Crosses (tableRect ns i w) p q ∨ Crosses (tableRect ns i w) q r) : p = r := by
  obtain ⟨ws, hf⟩ := hs.1.1
  obtain ⟨a, b, n, m, ha, hb, hn, hm, rfl, rfl, hr1⟩ := follows_road hf hp hq
  obtain ⟨b', e, m', o, hb', he, hm', ho, hloc, rfl, hr2⟩ := follows_road hf hq hr
  rw [hb] at hb'
  cases hb'
  rw [hm] at hm'
  cases hm'
  have road1 : RoadBetween ns PL n m := ⟨a, b, hn, hm, hr1⟩
  have road2 : RoadBetween ns PL m o := ⟨b, e, hm, ho, hr2⟩
  have long1 := fun {y} (hg : Gap ns cs y) => no_long_road h hc hs hf ha hb hn hm hp hq hg
  have long2 := fun {y} (hg : Gap ns cs y) => no_long_road h hc hs hf hb he hm ho hq hr hg
  have hne1 : n.location.x ≠ m.location.x := by
    rcases hd with rfl | rfl <;> simp only [Heads] at h1
    · exact ne_of_gt h1
    · exact ne_of_lt h1
  have hne : m.location.x ≠ o.location.x := by
    rcases hd with rfl | rfl <;> simp only [Heads, opposite] at h2
    · exact ne_of_lt h2
    · exact ne_of_gt h2
  suffices n = o by rw [this]
  rcases hcr with hcr | hcr
  · obtain ⟨y, hg, hcase⟩ := crossing_road h road1 hi hcr hne1
    refine turn_same h hg road1.left ?_ road2 (long2 hg).1 h1 h2
    rcases hcase with ⟨hl, hx | hx⟩ | ⟨hl, hx | hx⟩
    · exact absurd ⟨hl, hx⟩ (long1 hg).1
    · exact .inl ⟨hl, hx⟩
    · exact absurd ⟨hl, hx⟩ (long1 hg).2
    · exact .inr ⟨hl, hx⟩
  · obtain ⟨y, hg, hcase⟩ := crossing_road h road2 hi hcr hne
    have hcase' : LStar ns cs y o ∧ RStar ns cs y m ∨ LStar ns cs y m ∧ RStar ns cs y o := by
      rcases hcase with ⟨hl, hx | hx⟩ | ⟨hl, hx | hx⟩
      · exact absurd ⟨hl, hx⟩ (long2 hg).1
      · exact .inr ⟨hl, hx⟩
      · exact absurd ⟨hl, hx⟩ (long2 hg).2
      · exact .inl ⟨hl, hx⟩
    have hb2 := heads_back h2 hne
    have hd : opposite (opposite d) = d := by cases d <;> rfl
    rw [hd] at hb2
    exact (turn_same h hg road2.symm.left hcase' road1.symm (fun hx => (long1 hg).2 ⟨hx.1, hx.2⟩) hb2 (heads_back h1 hne1)).symm

theorem road_apart {n m : RouteNodeData} (h : RoadBetween ns PL n m) (hx : n.location.x = m.location.x) :
    n.location.y ≠ m.location.y := by
  obtain ⟨a, b, ha, hb, d, hd | hd⟩ := h
  · have ht := (neighbour_ahead hd ha hb).1
    cases d
    · exact ne_of_gt ht.2
    · exact ne_of_lt ht.2
    · exact absurd hx (ne_of_gt ht.2)
    · exact absurd hx (ne_of_lt ht.2)
  · have ht := (neighbour_ahead hd hb ha).1
    cases d
    · exact ne_of_lt ht.2
    · exact ne_of_gt ht.2
    · exact absurd hx (ne_of_lt ht.2)
    · exact absurd hx (ne_of_gt ht.2)

/-- A road up or down that passes through a table runs along the middle of its column. -/
theorem cross_middle (h : Ok ns cs) {n m : RouteNodeData} (hr : RoadBetween ns PL n m) (hx : n.location.x = m.location.x) {i w : Nat}
    (hi : ns[i]? = some w) (hc : Crosses (tableRect ns i w) n.location m.location) :
    n.location.x = 200 + 380 * ((i % 3 : Nat) : Rat) ∧
      (n.location.y < rowTop ns (i / 3) + 35 * (w : Rat) ∧ rowTop ns (i / 3) < m.location.y ∨
        m.location.y < rowTop ns (i / 3) + 35 * (w : Rat) ∧ rowTop ns (i / 3) < n.location.y) := by
  have hk := tab_of hi
  have hc := crosses_tab hc
  have hp : 50 + 380 * ((i % 3 : Nat) : Rat) < n.location.x ∧ n.location.x < 350 + 380 * ((i % 3 : Nat) : Rat) ∧
      (n.location.y < rowTop ns (i / 3) + 35 * (w : Rat) ∧ rowTop ns (i / 3) < m.location.y ∨
        m.location.y < rowTop ns (i / 3) + 35 * (w : Rat) ∧ rowTop ns (i / 3) < n.location.y) := by
    rcases lt_or_gt_of_ne (road_apart hr hx) with hlt | hlt
    · obtain ⟨h1, h2, h3, h4⟩ := crosses_down hk ⟨hx.symm, hlt⟩ hc
      exact ⟨h1, h2, .inl ⟨h3, h4⟩⟩
    · obtain ⟨h1, h2, h3, h4⟩ := crosses_up hk ⟨hx.symm, hlt⟩ hc
      exact ⟨h1, h2, .inr ⟨h3, h4⟩⟩
  refine ⟨?_, hp.2.2⟩
  obtain ⟨h1, h2, -⟩ := hp
  obtain ⟨j, hj, ⟨-, hx'⟩ | ⟨hj2, ⟨-, hx'⟩ | hx' | ⟨-, hx'⟩⟩⟩ := place_x h hr.left
  · rcases street_off (k := i % 3) hx' with h3 | h3 <;> linarith
  · obtain rfl := same_col (le_refl _) (by norm_num) hx' h1.le h2.le
    linarith
  · obtain rfl := same_col (by norm_num) (by norm_num) hx' h1.le h2.le
    exact hx'
  · obtain rfl := same_col (by norm_num) (le_refl _) hx' h1.le h2.le
    linarith

/-- If no relation ends at the last column of a table, a shortest route does not turn back at a road through a table. -/
theorem no_turn (h : Ok ns cs) {c : NodeRef × NodeRef} (hc : c ∈ cs) {ps : List Point}
    (hs : ShortestRoute ns cs c ps) {k : Nat} {p q r : Point} {d : Orientation} (hp : ps[k]? = some p) (hq : ps[k + 1]? = some q)
    (hr : ps[k + 2]? = some r) (h1 : Heads d p q) (h2 : Heads (opposite d) q r) {i w : Nat} (hi : ns[i]? = some w)
    (hl : NoLast ns cs (i % 3)) (hcr : Crosses (tableRect ns i w) p q ∨ Crosses (tableRect ns i w) q r) : p = r := by
  by_cases hd : d = .left ∨ d = .right
  · exact side_turn h hc hs hp hq hr h1 h2 hd hi hcr
  obtain ⟨⟨⟨ws, hf⟩, ⟨a, oa, hha, hae⟩, ⟨b, ob, hhb, hbe⟩⟩, hmin, -⟩ := hs
  obtain ⟨i1, j1, n, m, s, z, c1, c2, hi1, hj1, hn1, hm1, rfl, rfl, road1, hps, hpz, t1, t2, hcost⟩ := follows_cut hf hp hq
  obtain ⟨i2, j2, m', o, s', z', c3, c4, hi2, hj2, hn2, hm2, hloc, rfl, road2, hps', hpz', t3, t4, hcost'⟩ := follows_cut hf hq hr
  rw [hj1] at hi2
  cases hi2
  rw [hm1] at hn2
  cases hn2
  rw [hha, Option.some.injEq] at hps hps'
  rw [hhb, Option.some.injEq] at hpz hpz'
  have hx1 : n.location.x = m.location.x := by
    cases d <;> simp only [Heads, reduceCtorEq, or_false, or_true, not_true_eq_false, not_false_eq_true] at h1 hd
    · exact h1.1.symm
    · exact h1.1.symm
  have hx2 : o.location.x = m.location.x := by
    cases d <;> simp only [Heads, opposite, reduceCtorEq, or_false, or_true, not_true_eq_false, not_false_eq_true] at h2 hd
    · exact h2.1
    · exact h2.1
  have hy1 := road_apart road1 hx1
  have hy2 := road_apart road2 hx2.symm
  have hmid : m.location.x = 200 + 380 * ((i % 3 : Nat) : Rat) := by
    rcases hcr with hcr | hcr
    · rw [← hx1]; exact (cross_middle h road1 hx1 hi hcr).1
    · exact (cross_middle h road2 hx2.symm hi hcr).1
  have hside : n.location.y < m.location.y ∧ o.location.y < m.location.y ∨ m.location.y < n.location.y ∧ m.location.y < o.location.y := by
    cases d <;> simp only [Heads, opposite, reduceCtorEq, or_false, or_true, not_true_eq_false, not_false_eq_true] at h1 h2 hd
    · exact .inr ⟨h1.2, lt_of_le_of_ne h2.2 hy2⟩
    · exact .inl ⟨lt_of_le_of_ne h1.2 hy1, h2.2⟩
  rcases turn_trip h hl road1 road2 hmid hx1 hx2 hside with heq | ⟨x, hx, hxl⟩
  · exact heq
  exfalso
  obtain ⟨ps1, hp1, e1⟩ := trip_route ((t1.append hx).append t4) ⟨_, hps ▸ hae⟩ ⟨_, hpz' ▸ hbe⟩
  obtain ⟨ps2, hp2, e2⟩ := trip_route (t3.append t2) ⟨_, hps' ▸ hae⟩ ⟨_, hpz ▸ hbe⟩
  have m1 := hmin ps1 hp1
  have m2 := hmin ps2 hp2
  omega

/-- Where a shortest route passes through a table. -/
theorem passes (h : Ok ns cs) {c : NodeRef × NodeRef} (hc : c ∈ cs) {ps : List Point} (hs : ShortestRoute ns cs c ps)
    {k : Nat} {p q : Point} (hp : ps[k]? = some p) (hq : ps[k + 1]? = some q) {i w : Nat} (hi : ns[i]? = some w)
    (hcr : Crosses (tableRect ns i w) p q) :
    (p.x = 200 + 380 * ((i % 3 : Nat) : Rat) ∧ q.x = p.x ∧ (NoLast ns cs (i % 3) → ∀ o,
      (⟨p.x, rowTop ns (i / 3)⟩, o) ∉ allEnds ns cs ∧ (⟨p.x, rowTop ns (i / 3) + 35 * (w : Rat)⟩, o) ∉ allEnds ns cs)) ∨
    (i % 3 = 1 ∧ p.y = q.y ∧
      ((p.x = 200 ∨ p.x = 390) ∧ (q.x = 770 ∨ q.x = 960) ∨ (q.x = 200 ∨ q.x = 390) ∧ (p.x = 770 ∨ p.x = 960)) ∧
      ∀ o, (⟨430, p.y⟩, o) ∉ allEnds ns cs ∧ (⟨730, p.y⟩, o) ∉ allEnds ns cs) := by
  obtain ⟨ws, hf⟩ := hs.1.1
  obtain ⟨a, b, n, m, ha, hb, hn, hm, rfl, rfl, hr1⟩ := follows_road hf hp hq
  have road : RoadBetween ns PL n m := ⟨a, b, hn, hm, hr1⟩
  have hk := tab_of hi
  have hw := h.one hk
  by_cases hx : n.location.x = m.location.x
  · left
    obtain ⟨hmid, hy⟩ := cross_middle h road hx hi hcr
    refine ⟨hmid, hx.symm, fun hl o => ?_⟩
    have hdown : (⟨200 + 380 * ((i % 3 : Nat) : Rat), rowTop ns (i / 3) + 35 * (w : Rat)⟩, .down) ∉ allEnds ns cs := by
      have p1 := col_pos h road.left hk hmid
      have p2 := col_pos h road.symm.left hk (hx.symm.trans hmid)
      rcases lt_or_gt_of_ne (road_apart road hx) with hlt | hlt
      · have hcl := (clear_road h hl road hmid hx.symm hlt).1
        refine hcl _ _ hk ?_ ?_
        · rcases p1 with p1 | p1
          · exact p1
          · rcases hy with ⟨h1, h2⟩ | ⟨h1, h2⟩ <;> linarith
        · rcases p2 with p2 | p2
          · rcases hy with ⟨h1, h2⟩ | ⟨h1, h2⟩ <;> linarith
          · exact p2
      · have hcl := (clear_road h hl road.symm (hx.symm.trans hmid) hx hlt).1
        refine hcl _ _ hk ?_ ?_
        · rcases p2 with p2 | p2
          · exact p2
          · rcases hy with ⟨h1, h2⟩ | ⟨h1, h2⟩ <;> linarith
        · rcases p1 with p1 | p1
          · rcases hy with ⟨h1, h2⟩ | ⟨h1, h2⟩ <;> linarith
          · exact p1
    -- an end above the middle of a column is an upper or lower one
    have key : ∀ {y : Rat} {o : Orientation}, (⟨200 + 380 * ((i % 3 : Nat) : Rat), y⟩, o) ∈ allEnds ns cs →
        ∃ r m', Tab ns (i % 3) r m' ∧ (o = .up ∧ y = rowTop ns r ∨ o = .down ∧ y = rowTop ns r + 35 * (m' : Rat)) := by
      intro y o he
      obtain ⟨c', r', m', hm', hcase⟩ := allEnds_cases h he
      cases o <;> simp only [Point.mk.injEq] at hcase
      · obtain rfl := same_col (c := i % 3) (c' := c') (a := 200) (by norm_num) (by norm_num) hcase.1.1 (by linarith) (by linarith)
        exact ⟨r', m', hm', .inl ⟨rfl, hcase.1.2⟩⟩
      · obtain rfl := same_col (c := i % 3) (c' := c') (a := 200) (by norm_num) (by norm_num) hcase.1 (by linarith) (by linarith)
        exact ⟨r', m', hm', .inr ⟨rfl, hcase.2⟩⟩
      · obtain rfl := same_col (c := i % 3) (c' := c') (a := 50) (by norm_num) (by norm_num) hcase.1 (by linarith) (by linarith)
        linarith [hcase.1]
      · obtain rfl := same_col (c := i % 3) (c' := c') (a := 350) (by norm_num) (by norm_num) hcase.1 (by linarith) (by linarith)
        linarith [hcase.1]
    rw [hmid]
    constructor
    · intro he
      obtain ⟨r, m', hm', ⟨rfl, hy'⟩ | ⟨rfl, hy'⟩⟩ := key he
      · exact hdown (up_down h hk rfl he)
      · have h1 := h.one hm'
        rcases Nat.lt_trichotomy r (i / 3) with hlt | heq | hlt
        · have := hm'.apart hlt; linarith
        · rw [heq] at hy'; linarith
        · have := hk.apart hlt; linarith
    · intro he
      obtain ⟨r, m', hm', ⟨rfl, hy'⟩ | ⟨rfl, hy'⟩⟩ := key he
      · have h1 := h.one hm'
        rcases Nat.lt_trichotomy r (i / 3) with hlt | heq | hlt
        · have := hm'.apart hlt; linarith
        · rw [heq] at hy'; linarith
        · have := hk.apart hlt; linarith
      · exact hdown he
  · right
    obtain ⟨y, hg, hcase⟩ := crossing_road h road hi hcr hx
    have hlong := no_long_road h hc hs hf ha hb hn hm hp hq hg
    obtain ⟨r1, w1, ht1, g1, g2, g3⟩ := id hg
    have hfree : ∀ o, (⟨430, y⟩, o) ∉ allEnds ns cs ∧ (⟨730, y⟩, o) ∉ allEnds ns cs := by
      have key : ∀ {x : Rat} {o : Orientation}, x = 430 ∨ x = 730 → (⟨x, y⟩, o) ∉ allEnds ns cs := by
        intro x o hx he
        have hx1 : 50 + 380 * ((1 : Nat) : Rat) ≤ x := by rcases hx with rfl | rfl <;> norm_num
        have hx2 : x ≤ 350 + 380 * ((1 : Nat) : Rat) := by rcases hx with rfl | rfl <;> norm_num
        obtain ⟨k, r, w', hk', hcase⟩ := allEnds_cases h he
        cases o <;> simp only [Point.mk.injEq] at hcase
        · obtain rfl := same_col (c := 1) (c' := k) (a := 200) (by norm_num) (by norm_num) hcase.1.1 hx1 hx2
          have h1 := hcase.1.1
          rcases hx with rfl | rfl <;> norm_num at h1
        · obtain rfl := same_col (c := 1) (c' := k) (a := 200) (by norm_num) (by norm_num) hcase.1 hx1 hx2
          have h1 := hcase.1
          rcases hx with rfl | rfl <;> norm_num at h1
        · obtain rfl := same_col (c := 1) (c' := k) (a := 50) (by norm_num) (by norm_num) hcase.1 hx1 hx2
          obtain ⟨h1, -, -, h4⟩ := hcase
          subst h1
          exact g3 ⟨he, h4⟩
        · obtain rfl := same_col (c := 1) (c' := k) (a := 350) (by norm_num) (by norm_num) hcase.1 hx1 hx2
          obtain ⟨h1, -, -, h4⟩ := hcase
          subst h1
          exact g3 ⟨h4, he⟩
      exact fun o => ⟨key (.inl rfl), key (.inr rfl)⟩
    have only : ∀ {u r : RouteNodeData}, u ∈ PL → r ∈ PL → LStar ns cs y u → RStar ns cs y r →
        Crosses (tableRect ns i w) u.location r.location → i % 3 = 1 := by
      intro u r hu hr' hl hr hcr
      have hlt : u.location.x < r.location.x := by
        rcases hl.2.2 with hx | ⟨hx, -⟩ <;> rcases hr.2.2 with hx' | ⟨hx', -⟩ <;> rw [hx, hx'] <;> norm_num
      obtain ⟨d1, d2, d3, d4⟩ := crosses_right hk ⟨hr.2.1.trans hl.2.1.symm, hlt⟩ (crosses_tab hcr)
      generalize i % 3 = c' at d1 d2 hk
      generalize i / 3 = r' at d3 d4 hk
      rcases col3 hk.1 with rfl | rfl | rfl
      · exfalso
        rcases hl.2.2 with hx | ⟨hx, -⟩
        · rw [hx] at d1; norm_num at d1
        · have := col_pos h hu hk (by rw [hx]; norm_num)
          rcases this with h1 | h1 <;> linarith
      · rfl
      · exfalso
        rcases hr.2.2 with hx | ⟨hx, -⟩
        · rw [hx] at d2; norm_num at d2
        · have := col_pos h hr' hk (by rw [hx]; norm_num)
          rw [hr.2.1, ← hl.2.1] at this
          rcases this with h1 | h1 <;> linarith
    have xs : ∀ {u r : RouteNodeData}, LStar ns cs y u → RStar ns cs y r →
        (u.location.x = 200 ∨ u.location.x = 390) ∧ (r.location.x = 770 ∨ r.location.x = 960) := by
      intro u r hl hr
      exact ⟨hl.2.2.elim .inr fun hx => .inl hx.1, hr.2.2.elim .inl fun hx => .inr hx.1⟩
    rcases hcase with ⟨hl, hx | hx⟩ | ⟨hl, hx | hx⟩
    · exact absurd ⟨hl, hx⟩ hlong.1
    · refine ⟨only road.left road.symm.left hl hx hcr, hl.2.1.trans hx.2.1.symm, .inl (xs hl hx), ?_⟩
      rw [hl.2.1]; exact hfree
    · exact absurd ⟨hl, hx⟩ hlong.2
    · refine ⟨only road.symm.left road.left hl hx (crosses_swap hcr), hx.2.1.trans hl.2.1.symm, .inr (xs hl hx), ?_⟩
      rw [hx.2.1]; exact hfree

theorem ok_module (m : Module) : Ok (lineNumbers (definitions m.entries)) (connections [] m.entries) := by
  refine ⟨?_, connections_valid m⟩
  intro k n hk
  simp only [lineNumbers, List.getElem?_map, Option.map_eq_some_iff] at hk
  obtain ⟨d, -, rfl⟩ := hk
  omega

end

end Seiren.Grid

namespace Seiren
open Spec

/-- The last column of a table. -/
def Spec.LastColumn (defs : List EntityDefinition) : NodeRef → Prop
  | .table _ => False
  | .column k j => ∃ d, defs[k]? = some d ∧ d.fields.length = j + 1

/-- In the `c`-th column of tables (0, 1 or 2). -/
def Spec.InColumn (c : Nat) : NodeRef → Prop
  | .table k => k % 3 = c
  | .column k _ => k % 3 = c

theorem noLast_module (m : Module) (i : Nat) (h : ∀ c ∈ connections [] m.entries, ∀ e, e = c.1 ∨ e = c.2 → InColumn i e →
    ¬ LastColumn (definitions m.entries) e) : Grid.NoLast (lineNumbers (definitions m.entries)) (connections [] m.entries) i := by
  intro c hc k j hki hk
  have hl : LastColumn (definitions m.entries) (.column k j) := by
    simp only [lineNumbers, List.getElem?_map, Option.map_eq_some_iff] at hk
    obtain ⟨d, hd, he⟩ := hk
    exact ⟨d, hd, by omega⟩
  exact ⟨fun e => h c hc _ (.inl e.symm) hki hl, fun e => h c hc _ (.inr e.symm) hki hl⟩

/-- **C38** for every module, however many tables it has: where a path passes through a table, it does so straight down or up
through the middle of it, or straight to the left or right.  To the left or right it passes only through a table of the second
column of tables, at a height at which no relation ends at it.  Up or down it passes only through a table at whose upper and
lower side no relation ends, unless a relation ends at the last column of some table in the same column of tables. -/
theorem C38_any_tables {q : Queue} {QI : List Entry → Prop} (hq : q.Lawful QI) (m : Module)
    (hsize : (placeNodes m.intoMir).2.size.height ≤ 1000000000) (doc' : Document)
    (g' : RouteGraph) (h : drawEdgePath q (laidOut m.intoMir) .new = .ok (doc', g')) (e : EdgeData) (he : e ∈ doc'.edges)
    (ps : List Point) (hps : e.pathPoints = some ps) (k i w : Nat) (a b : Point) (ha : ps[k]? = some a) (hb : ps[k + 1]? = some b)
    (hi : (lineNumbers (definitions m.entries))[i]? = some w)
    (hc : Crosses (tableRect (lineNumbers (definitions m.entries)) i w) a b) :
    (a.x = 200 + 380 * ((i % 3 : Nat) : Rat) ∧ b.x = a.x ∧
      ((∀ c ∈ connections [] m.entries, ∀ e, e = c.1 ∨ e = c.2 → InColumn (i % 3) e → ¬ LastColumn (definitions m.entries) e) →
        ∀ o, (⟨a.x, rowTop (lineNumbers (definitions m.entries)) (i / 3)⟩, o) ∉
            allEnds (lineNumbers (definitions m.entries)) (connections [] m.entries) ∧
          (⟨a.x, rowTop (lineNumbers (definitions m.entries)) (i / 3) + 35 * (w : Rat)⟩, o) ∉
            allEnds (lineNumbers (definitions m.entries)) (connections [] m.entries))) ∨
    (i % 3 = 1 ∧ a.y = b.y ∧
      ((a.x = 200 ∨ a.x = 390) ∧ (b.x = 770 ∨ b.x = 960) ∨ (b.x = 200 ∨ b.x = 390) ∧ (a.x = 770 ∨ a.x = 960)) ∧
      ∀ o, (⟨430, a.y⟩, o) ∉ allEnds (lineNumbers (definitions m.entries)) (connections [] m.entries) ∧
        (⟨730, a.y⟩, o) ∉ allEnds (lineNumbers (definitions m.entries)) (connections [] m.entries)) := by
  obtain ⟨con, hcon, hs⟩ := edge_route hq m hsize doc' g' h e he ps hps
  rcases Grid.passes (Grid.ok_module m) hcon hs ha hb hi hc with ⟨h1, h2, h3⟩ | h1
  · exact .inl ⟨h1, h2, fun hl => h3 (noLast_module m _ hl)⟩
  · exact .inr h1

/-- **C40** for every module none of whose relations ends at the last column of a table: it is drawn exactly if no relation
joins an end to itself or a table to its own middle line.  (`C40_refuted` has a relation that ends at a last column.) -/
theorem C40_any_tables {q : Queue} {QI : List Entry → Prop} (hq : q.Lawful QI) (m : Module)
    (hlast : ∀ c ∈ connections [] m.entries, ¬ LastColumn (definitions m.entries) c.1 ∧ ¬ LastColumn (definitions m.entries) c.2)
    (hsize : (placeNodes m.intoMir).2.size.height ≤ 1000000000) :
    (∃ el, drawModule q m = .ok el) ↔ ∀ c ∈ connections [] m.entries, ¬ Meet (definitions m.entries) c.1 c.2 := by
  constructor
  · rintro ⟨el, hel⟩ c hc hmeet
    obtain ⟨p, hp⟩ := C41_refuted hq m hsize c.1 c.2 hc hmeet
    rw [hel] at hp
    cases hp
  · intro hmeet
    refine drawn_unless_turn hq m hsize hmeet fun doc' g' h1 e he ps hpe k hk => ?_
    obtain ⟨a, b, c, d, r, ha, hb, hc, hd1, hd2, hne, htab, hcr⟩ :=
      turnsBack_crosses hq _ (drawable_intoMir m) hsize doc' g' h1 e he ps hpe k hk
    obtain ⟨con, hcon, hs⟩ := edge_route hq m hsize doc' g' h1 e he ps hpe
    obtain ⟨i, w, hi, rfl⟩ := (isTable_iff (drawable_intoMir m) r).mp htab
    rw [lineCounts_intoMir] at hi hcr
    refine hne (Grid.no_turn (Grid.ok_module m) hcon hs ha hb hc hd1 hd2 hi (noLast_module m _ ?_) hcr)
    rintro c hc e (rfl | rfl) -
    · exact (hlast c hc).1
    · exact (hlast c hc).2

/-- Seven tables in three rows, and a relation between the first and the last one. -/
def downThrough : Module :=
  ⟨none, [.definition ⟨c!"a", []⟩, .definition ⟨c!"b", []⟩, .definition ⟨c!"c", []⟩, .definition ⟨c!"d", [⟨c!"x", .int, none⟩]⟩,
    .definition ⟨c!"e", []⟩, .definition ⟨c!"f", []⟩, .definition ⟨c!"g", []⟩, .relation ⟨.entity c!"a", .entity c!"g"⟩]⟩

set_option maxRecDepth 1000000 in
theorem downThrough_paths : pathsOf (drawEdgePath BinHeap.queue (laidOut downThrough.intoMir) .new) =
    some [some [⟨200, 85⟩, ⟨200, 125⟩, ⟨200, 275⟩, ⟨200, 315⟩]] := by decide +kernel

theorem downThrough_connections : connections [] downThrough.entries = [(.table 0, .table 6)] := by decide +kernel

theorem downThrough_last : ∀ c ∈ connections [] downThrough.entries,
    ¬ LastColumn (definitions downThrough.entries) c.1 ∧ ¬ LastColumn (definitions downThrough.entries) c.2 := by
  rw [downThrough_connections]
  simp [LastColumn]

/-- It is drawn, with a path down through the fourth table. -/
example : (∃ el, drawModule BinHeap.queue downThrough = .ok el) ∧
    Crosses (tableRect (lineNumbers (definitions downThrough.entries)) 3 2) ⟨200, 125⟩ ⟨200, 275⟩ ∧
    ∀ o, (⟨200, 165⟩, o) ∉ allEnds (lineNumbers (definitions downThrough.entries)) (connections [] downThrough.entries) := by
  have hsize : (placeNodes downThrough.intoMir).2.size.height ≤ 1000000000 := by decide +kernel
  have e : tableRect (lineNumbers (definitions downThrough.entries)) 3 2 = ⟨⟨50, 165⟩, ⟨300, 70⟩⟩ := by decide +kernel
  have e' : rowTop (lineNumbers (definitions downThrough.entries)) (3 / 3) = 165 := by decide +kernel
  have hcr : Crosses (tableRect (lineNumbers (definitions downThrough.entries)) 3 2) ⟨200, 125⟩ ⟨200, 275⟩ := by
    refine ⟨1/2, by norm_num, by norm_num, ?_⟩
    rw [e]
    norm_num [lerp, Interior]
  refine ⟨(C40_any_tables BinHeap.lawful _ downThrough_last hsize).mpr ?_, hcr, ?_⟩
  · rw [downThrough_connections]
    simp [Meet]
  · obtain ⟨d, g, h1, h2⟩ := pathsOf_some downThrough_paths
    have hmem : (some [⟨200, 85⟩, ⟨200, 125⟩, ⟨200, 275⟩, ⟨200, 315⟩] : Option (List Point)) ∈ d.edges.map (·.pathPoints) := by
      rw [h2]; simp
    obtain ⟨e, he, hps⟩ := List.mem_map.mp hmem
    rcases C38_any_tables BinHeap.lawful _ hsize d g h1 e he _ hps 1 3 2 _ _ rfl rfl (by decide +kernel) hcr with ⟨-, -, h3⟩ | ⟨h3, -⟩
    · rw [e'] at h3
      refine fun o => (h3 ?_ o).1
      rintro c hc e (rfl | rfl) -
      · exact (downThrough_last c hc).1
      · exact (downThrough_last c hc).2
    · omega

end Seiren
