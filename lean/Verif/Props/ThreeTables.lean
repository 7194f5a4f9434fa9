import Verif.Proofs.ThreeRoutes
import Verif.Props.OneRow
/-! # Modules with three tables

With three tables a path may pass through the second one (`C38_refuted`).  It does not turn back there, and so such modules are
drawn.  With four tables it may turn back (`C40_refuted`). -/

namespace Seiren
open Spec

section
variable {m0 m1 m2 : Nat} {cs : List (NodeRef × NodeRef)}

local notation "NS" => [m0, m1, m2]
local notation "PL" => places [m0, m1, m2] (allEnds [m0, m1, m2] cs)

/-- Between which places a road passes through a table. -/
theorem crossing_road (h : OneRow NS cs) {n m : RouteNodeData} (hr : RoadBetween NS PL n m) {k w : Nat} (hk : NS[k]? = some w)
    (hc : Crosses (tableRect NS k w) n.location m.location) : ∃ y, Gap m0 m1 m2 cs y ∧
      (LStar m0 m1 m2 cs y n ∧ (m = ⟨⟨1150, y⟩, none⟩ ∨ RStar m0 m1 m2 cs y m) ∨
        LStar m0 m1 m2 cs y m ∧ (n = ⟨⟨1150, y⟩, none⟩ ∨ RStar m0 m1 m2 cs y n)) := by
  have key : ∀ {n m : RouteNodeData} {a b : Nat} {d : Orientation}, (PL)[a]? = some n → (PL)[b]? = some m →
      NeighbourIn NS PL d a b → Crosses (tableRect NS k w) n.location m.location → ∃ y, Gap m0 m1 m2 cs y ∧
      (LStar m0 m1 m2 cs y n ∧ (m = ⟨⟨1150, y⟩, none⟩ ∨ RStar m0 m1 m2 cs y m) ∨ LStar m0 m1 m2 cs y m ∧ RStar m0 m1 m2 cs y n) := by
    intro n m a b d ha hb hd hc
    have ht := (neighbour_ahead hd ha hb).1
    cases d
    · exact (no_road_up h hd ha hb hk hc).elim
    · exact (no_road_down h hd ha hb hk hc).elim
    · obtain ⟨h1, h2, h3⟩ := cross_left h hd ha hb hk (crosses_left (h.lt hk) ht hc)
      exact ⟨_, h1, .inr ⟨h2, h3⟩⟩
    · obtain ⟨h1, h2, h3⟩ := cross_right h hd ha hb hk (crosses_right (h.lt hk) ht hc)
      refine ⟨_, h1, .inl ⟨h2, ?_⟩⟩
      rcases h3 with ⟨h3, h4, h5⟩ | h3
      · exact .inl (rnd_eq h3 h5 h4)
      · exact .inr h3
  obtain ⟨a, b, ha, hb, d, hd | hd⟩ := hr
  · obtain ⟨y, h1, h2 | ⟨h2, h3⟩⟩ := key ha hb hd hc
    · exact ⟨y, h1, .inl h2⟩
    · exact ⟨y, h1, .inr ⟨h2, .inr h3⟩⟩
  · obtain ⟨y, h1, h2 | ⟨h2, h3⟩⟩ := key hb ha hd (crosses_swap hc)
    · exact ⟨y, h1, .inr h2⟩
    · exact ⟨y, h1, .inl ⟨h2, .inr h3⟩⟩

theorem endsOf_allEnds {ns : List Nat} {c : NodeRef × NodeRef} (hc : c ∈ cs) :
    (∀ e ∈ endsOf ns c.1, e ∈ allEnds ns cs) ∧ ∀ e ∈ endsOf ns c.2, e ∈ allEnds ns cs := by
  simp only [allEnds, List.mem_flatMap, List.mem_append]
  exact ⟨fun e he => ⟨c, hc, .inl he⟩, fun e he => ⟨c, hc, .inr he⟩⟩

theorem trip_route {ns : List Nat} {c : NodeRef × NodeRef} {s z : RouteNodeData} {x : Int}
    (ht : Trip ns (places ns (allEnds ns cs)) s z x) (hs : ∃ o, (s.location, o) ∈ endsOf ns c.1)
    (hz : ∃ o, (z.location, o) ∈ endsOf ns c.2) : ∃ ps, IsRoute ns cs c ps ∧ routeCost ps = x := by
  obtain ⟨i, w, p, ps, hi, rfl, hf, hl, hcost⟩ := ht.follows (places_nodup ns _)
  obtain ⟨o, ho⟩ := hs
  obtain ⟨o', ho'⟩ := hz
  exact ⟨_, ⟨⟨_, hf⟩, ⟨_, o, rfl, ho⟩, ⟨_, o', hl, ho'⟩⟩, hcost⟩

theorem star_shorter {y : Rat} {u : RouteNodeData} (hu : LStar m0 m1 m2 cs y u) :
    segmentCost u.location ⟨770, y⟩ < segmentCost u.location ⟨1150, y⟩ := by
  obtain ⟨⟨ux, uy⟩, uo⟩ := u
  obtain ⟨-, hy, hx⟩ := hu
  simp only at hy hx ⊢
  subst hy
  rcases hx with rfl | ⟨rfl, -⟩ <;> rw [segmentCost_row (by norm_num), segmentCost_row (by norm_num)] <;> decide +kernel

/-- A shortest route does not pass from the first table to behind the third one in one go, nor back. -/
theorem no_long_road (h : OneRow NS cs) {c : NodeRef × NodeRef} (hc : c ∈ cs) {ps : List Point} (hs : ShortestRoute NS cs c ps)
    {w : List Nat} (hf : Follows NS PL w ps) {k i j : Nat} {n m : RouteNodeData} (hi : w[k]? = some i) (hj : w[k + 1]? = some j)
    (hn : (PL)[i]? = some n) (hm : (PL)[j]? = some m) (ha : ps[k]? = some n.location) (hb : ps[k + 1]? = some m.location) {y : Rat}
    (hg : Gap m0 m1 m2 cs y) : ¬ (LStar m0 m1 m2 cs y n ∧ m = ⟨⟨1150, y⟩, none⟩) ∧ ¬ (LStar m0 m1 m2 cs y m ∧ n = ⟨⟨1150, y⟩, none⟩) := by
  obtain ⟨⟨-, ⟨a, oa, hha, hae⟩, ⟨b, ob, hhb, hbe⟩⟩, hmin, -⟩ := hs
  obtain ⟨i', j', n', m', s, z, c1, c2, hi', hj', hn', hm', -, -, hroad, hps, hpz, t1, t2, hcost⟩ := follows_cut hf ha hb
  rw [hi] at hi'
  cases hi'
  rw [hj] at hj'
  cases hj'
  rw [hn] at hn'
  cases hn'
  rw [hm] at hm'
  cases hm'
  rw [hha, Option.some.injEq] at hps
  rw [hhb, Option.some.injEq] at hpz
  subst hps
  subst hpz
  obtain ⟨v1, v2⟩ := h.valid c hc
  obtain ⟨s1, s2⟩ := endsOf_allEnds (ns := NS) hc
  constructor
  · rintro ⟨hl, rfl⟩
    obtain ⟨z', c', h1, h2, h3⟩ := (mirror_trip h v2 s2 t2 ⟨_, hbe⟩).1 y rfl
    have hr := star_road h hg hl (r := ⟨⟨770, y⟩, none⟩) ⟨rfl, rfl, .inl rfl⟩ (List.mem_of_getElem? hn) h1.left
    obtain ⟨ps', hp1, hp2⟩ := trip_route (t1.append (.go hr.symm h1)) ⟨_, hae⟩ h3
    have h4 := hmin ps' hp1
    have h5 := star_shorter hl
    simp only at hcost hp2
    omega
  · rintro ⟨hl, rfl⟩
    obtain ⟨z', c', h1, h2, h3⟩ := (mirror_trip h v1 s1 t1.symm ⟨_, hae⟩).1 y rfl
    have hr := star_road h hg hl (r := ⟨⟨770, y⟩, none⟩) ⟨rfl, rfl, .inl rfl⟩ (List.mem_of_getElem? hm) h1.left
    obtain ⟨ps', hp1, hp2⟩ := trip_route (h1.symm.append (.go hr t2)) h3 ⟨_, hbe⟩
    have h4 := hmin ps' hp1
    have h5 := star_shorter hl
    rw [segmentCost_comm] at hcost hp2
    simp only at hcost hp2
    omega

/-- The next place beyond the second table. -/
theorem beyond_right (h : OneRow NS cs) {y : Rat} (hg : Gap m0 m1 m2 cs y) {u o : RouteNodeData} (hu : LStar m0 m1 m2 cs y u)
    (hr : RoadBetween NS PL u o) (hx : u.location.x < o.location.x) : o = ⟨⟨1150, y⟩, none⟩ ∨ RStar m0 m1 m2 cs y o := by
  have hum := hr.left
  have hom := hr.symm.left
  obtain ⟨a, b, ha, hb, d, hd⟩ := hr
  have hux : u.location.x < 430 := by rcases hu.2.2 with hx | ⟨hx, -⟩ <;> rw [hx] <;> norm_num
  have hor : NeighbourIn NS PL .right a b ∨ NeighbourIn NS PL .left b a := by
    rcases hd with hd | hd
    · have ht := (neighbour_ahead hd ha hb).1
      cases d
      · have := ht.1; linarith
      · have := ht.1; linarith
      · have := ht.2; linarith
      · exact .inl hd
    · have ht := (neighbour_ahead hd hb ha).1
      cases d
      · have := ht.1; linarith
      · have := ht.1; linarith
      · exact .inr hd
      · have := ht.2; linarith
  rcases hor with hd | hd
  · obtain ⟨hy, hox⟩ := right_of_lstar h hg hu hom (.inl (neighbour_ahead hd ha hb))
    obtain ⟨-, -, h3⟩ := cross_right h hd ha hb (k := 1) (w := m1) rfl
      ⟨by push_cast; linarith, by push_cast; linarith, by rw [hu.2.1]; exact hg.above, by rw [hu.2.1]; exact hg.below⟩
    rw [hu.2.1] at h3
    rcases h3 with ⟨h3, h4, h5⟩ | h3
    · exact .inl (rnd_eq h3 h5 h4)
    · exact .inr h3
  · obtain ⟨hy, hox⟩ := right_of_lstar h hg hu hom (.inr (neighbour_ahead hd hb ha))
    obtain ⟨-, -, h3⟩ := cross_left h hd hb ha (k := 1) (w := m1) rfl
      ⟨by push_cast; linarith, by push_cast; linarith, by rw [hy]; exact hg.above, by rw [hy]; exact hg.below⟩
    rw [hy] at h3
    exact .inr h3

theorem beyond_left (h : OneRow NS cs) {y : Rat} (hg : Gap m0 m1 m2 cs y) {r o : RouteNodeData} (hr : RStar m0 m1 m2 cs y r)
    (hro : RoadBetween NS PL r o) (hx : o.location.x < r.location.x) : LStar m0 m1 m2 cs y o := by
  have hrm := hro.left
  have hom := hro.symm.left
  obtain ⟨a, b, ha, hb, d, hd⟩ := hro
  have hrx : 730 < r.location.x := by rcases hr.2.2 with hx | ⟨hx, -⟩ <;> rw [hx] <;> norm_num
  have hor : NeighbourIn NS PL .left a b ∨ NeighbourIn NS PL .right b a := by
    rcases hd with hd | hd
    · have ht := (neighbour_ahead hd ha hb).1
      cases d
      · have := ht.1; linarith
      · have := ht.1; linarith
      · exact .inl hd
      · have := ht.2; linarith
    · have ht := (neighbour_ahead hd hb ha).1
      cases d
      · have := ht.1; linarith
      · have := ht.1; linarith
      · have := ht.2; linarith
      · exact .inr hd
  rcases hor with hd | hd
  · obtain ⟨hy, hox⟩ := left_of_rstar h hg hr hom (.inl (neighbour_ahead hd ha hb))
    obtain ⟨-, h3, -⟩ := cross_left h hd ha hb (k := 1) (w := m1) rfl
      ⟨by push_cast; linarith, by push_cast; linarith, by rw [hr.2.1]; exact hg.above, by rw [hr.2.1]; exact hg.below⟩
    rw [hr.2.1] at h3
    exact h3
  · obtain ⟨hy, hox⟩ := left_of_rstar h hg hr hom (.inr (neighbour_ahead hd hb ha))
    obtain ⟨-, h3, -⟩ := cross_right h hd hb ha (k := 1) (w := m1) rfl
      ⟨by push_cast; linarith, by push_cast; linarith, by rw [hy]; exact hg.above, by rw [hy]; exact hg.below⟩
    rw [hy] at h3
    exact h3

/-- Turning back at a road through a table leads to where the road came from. -/
theorem turn_same (h : OneRow NS cs) {y : Rat} (hg : Gap m0 m1 m2 cs y) {n m o : RouteNodeData} (hn : n ∈ PL)
    (hnm : LStar m0 m1 m2 cs y n ∧ RStar m0 m1 m2 cs y m ∨ LStar m0 m1 m2 cs y m ∧ RStar m0 m1 m2 cs y n)
    (hmo : RoadBetween NS PL m o) (hlong : ¬ (LStar m0 m1 m2 cs y m ∧ o = ⟨⟨1150, y⟩, none⟩)) {d : Orientation}
    (h1 : Heads d n.location m.location) (h2 : Heads (opposite d) m.location o.location) : n = o := by
  rcases hnm with ⟨hl, hr⟩ | ⟨hl, hr⟩
  · have hlt : Heads .right n.location m.location := by
      simp only [Heads]
      rcases hl.2.2 with hx | ⟨hx, -⟩ <;> rcases hr.2.2 with hx' | ⟨hx', -⟩ <;> rw [hx, hx'] <;> norm_num
    have hd := heads_unique h1 hlt
    subst hd
    exact hl.unique (beyond_left h hg hr hmo h2) hn hmo.symm.left
  · have hlt : Heads .left n.location m.location := by
      simp only [Heads]
      rcases hl.2.2 with hx | ⟨hx, -⟩ <;> rcases hr.2.2 with hx' | ⟨hx', -⟩ <;> rw [hx, hx'] <;> norm_num
    have hd := heads_unique h1 hlt
    subst hd
    rcases beyond_right h hg hl hmo h2 with ho | ho
    · exact absurd ⟨hl, ho⟩ hlong
    · exact hr.unique ho hn hmo.symm.left

theorem heads_back {d : Orientation} {a b : Point} (h : Heads d a b) (hne : a.x ≠ b.x) : Heads (opposite d) b a := by
  cases d <;> simp only [Heads, opposite] at h ⊢
  · exact absurd h.1.symm hne
  · exact absurd h.1.symm hne
  · exact h
  · exact h

/-- A shortest route that turns back at a road through a table returns to the same point. -/
theorem three_turns (h : OneRow NS cs) {c : NodeRef × NodeRef} (hc : c ∈ cs) {ps : List Point} (hs : ShortestRoute NS cs c ps)
    {k : Nat} {p q r : Point} {d : Orientation} (hp : ps[k]? = some p) (hq : ps[k + 1]? = some q) (hr : ps[k + 2]? = some r)
    (h1 : Heads d p q) (h2 : Heads (opposite d) q r) {i w : Nat} (hi : NS[i]? = some w)
    (hcr : Crosses (tableRect NS i w) p q ∨ Crosses (tableRect NS i w) q r) : p = r := by
  obtain ⟨ws, hf⟩ := hs.1.1
  obtain ⟨a, b, n, m, ha, hb, hn, hm, rfl, rfl, hr1⟩ := follows_road hf hp hq
  obtain ⟨b', e, m', o, hb', he, hm', ho, hloc, rfl, hr2⟩ := follows_road hf hq hr
  rw [hb] at hb'
  cases hb'
  rw [hm] at hm'
  cases hm'
  have road1 : RoadBetween NS PL n m := ⟨a, b, hn, hm, hr1⟩
  have road2 : RoadBetween NS PL m o := ⟨b, e, hm, ho, hr2⟩
  have long1 := fun {y} (hg : Gap m0 m1 m2 cs y) => no_long_road h hc hs hf ha hb hn hm hp hq hg
  have long2 := fun {y} (hg : Gap m0 m1 m2 cs y) => no_long_road h hc hs hf hb he hm ho hq hr hg
  suffices n = o by rw [this]
  rcases hcr with hcr | hcr
  · obtain ⟨y, hg, hcase⟩ := crossing_road h road1 hi hcr
    refine turn_same h hg road1.left ?_ road2 (long2 hg).1 h1 h2
    rcases hcase with ⟨hl, hx | hx⟩ | ⟨hl, hx | hx⟩
    · exact absurd ⟨hl, hx⟩ (long1 hg).1
    · exact .inl ⟨hl, hx⟩
    · exact absurd ⟨hl, hx⟩ (long1 hg).2
    · exact .inr ⟨hl, hx⟩
  · obtain ⟨y, hg, hcase⟩ := crossing_road h road2 hi hcr
    have hcase' : LStar m0 m1 m2 cs y o ∧ RStar m0 m1 m2 cs y m ∨ LStar m0 m1 m2 cs y m ∧ RStar m0 m1 m2 cs y o := by
      rcases hcase with ⟨hl, hx | hx⟩ | ⟨hl, hx | hx⟩
      · exact absurd ⟨hl, hx⟩ (long2 hg).1
      · exact .inr ⟨hl, hx⟩
      · exact absurd ⟨hl, hx⟩ (long2 hg).2
      · exact .inl ⟨hl, hx⟩
    have hne : m.location.x ≠ o.location.x := by
      rcases hcase' with ⟨hl, hr⟩ | ⟨hl, hr⟩ <;> rcases hl.2.2 with hx | ⟨hx, -⟩ <;> rcases hr.2.2 with hx' | ⟨hx', -⟩ <;>
        rw [hx, hx'] <;> norm_num
    have hb2 := heads_back h2 hne
    have hne1 : n.location.x ≠ m.location.x := by
      cases d <;> simp only [Heads, opposite] at h1 h2
      · exact absurd h2.1.symm hne
      · exact absurd h2.1.symm hne
      · exact ne_of_gt h1
      · exact ne_of_lt h1
    have hd : opposite (opposite d) = d := by cases d <;> rfl
    rw [hd] at hb2
    exact (turn_same h hg road2.symm.left hcase' road1.symm (fun hx => (long1 hg).2 ⟨hx.1, hx.2⟩) hb2 (heads_back h1 hne1)).symm

/-- Where a shortest route passes through a table. -/
theorem three_passes (h : OneRow NS cs) {c : NodeRef × NodeRef} (hc : c ∈ cs) {ps : List Point} (hs : ShortestRoute NS cs c ps)
    {k : Nat} {p q : Point} (hp : ps[k]? = some p) (hq : ps[k + 1]? = some q) {i w : Nat} (hi : NS[i]? = some w)
    (hcr : Crosses (tableRect NS i w) p q) : i = 1 ∧ p.y = q.y ∧
      ((p.x = 200 ∨ p.x = 390) ∧ (q.x = 770 ∨ q.x = 960) ∨ (q.x = 200 ∨ q.x = 390) ∧ (p.x = 770 ∨ p.x = 960)) ∧
      ∀ o, (⟨430, p.y⟩, o) ∉ allEnds NS cs ∧ (⟨730, p.y⟩, o) ∉ allEnds NS cs := by
  obtain ⟨ws, hf⟩ := hs.1.1
  obtain ⟨a, b, n, m, ha, hb, hn, hm, rfl, rfl, hr1⟩ := follows_road hf hp hq
  have road : RoadBetween NS PL n m := ⟨a, b, hn, hm, hr1⟩
  obtain ⟨y, hg, hcase⟩ := crossing_road h road hi hcr
  have hlong := no_long_road h hc hs hf ha hb hn hm hp hq hg
  have hfree : ∀ o, (⟨430, y⟩, o) ∉ allEnds NS cs ∧ (⟨730, y⟩, o) ∉ allEnds NS cs := by
    have key : ∀ {x : Rat} {o : Orientation}, x = 430 ∨ x = 730 → (⟨x, y⟩, o) ∉ allEnds NS cs := by
      intro x o hx he
      obtain ⟨k, w, hk, hc⟩ := allEnds_cases h he
      cases o <;> simp only [Point.mk.injEq] at hc
      · have h1 := hc.1.1
        rcases three_idx hk with ⟨rfl, rfl⟩ | ⟨rfl, rfl⟩ | ⟨rfl, rfl⟩ <;> rcases hx with rfl | rfl <;> norm_num at h1
      · have h1 := hc.1
        rcases three_idx hk with ⟨rfl, rfl⟩ | ⟨rfl, rfl⟩ | ⟨rfl, rfl⟩ <;> rcases hx with rfl | rfl <;> norm_num at h1
      · obtain ⟨h1, -, -, h4⟩ := hc
        rcases three_idx hk with ⟨rfl, rfl⟩ | ⟨rfl, rfl⟩ | ⟨rfl, rfl⟩
        · rcases hx with rfl | rfl <;> norm_num at h1
        · subst h1
          exact hg.free ⟨he, h4⟩
        · rcases hx with rfl | rfl <;> norm_num at h1
      · obtain ⟨h1, -, -, h4⟩ := hc
        rcases three_idx hk with ⟨rfl, rfl⟩ | ⟨rfl, rfl⟩ | ⟨rfl, rfl⟩
        · rcases hx with rfl | rfl <;> norm_num at h1
        · subst h1
          exact hg.free ⟨h4, he⟩
        · rcases hx with rfl | rfl <;> norm_num at h1
    exact fun o => ⟨key (.inl rfl), key (.inr rfl)⟩
  -- the table is the second one
  have only : ∀ {u r : RouteNodeData}, LStar m0 m1 m2 cs y u → RStar m0 m1 m2 cs y r →
      Crosses (tableRect NS i w) u.location r.location → i = 1 := by
    intro u r hl hr hcr
    have hlt : u.location.x < r.location.x := by
      rcases hl.2.2 with hx | ⟨hx, -⟩ <;> rcases hr.2.2 with hx' | ⟨hx', -⟩ <;> rw [hx, hx'] <;> norm_num
    obtain ⟨d1, d2, d3, d4⟩ := crosses_right (h.lt hi) ⟨hr.2.1.trans hl.2.1.symm, hlt⟩ hcr
    rw [hl.2.1] at d3 d4
    rcases three_idx hi with ⟨rfl, rfl⟩ | ⟨rfl, rfl⟩ | ⟨rfl, rfl⟩
    · rcases hl.2.2 with hx | ⟨hx, hy, -⟩
      · rw [hx] at d1; norm_num at d1
      · linarith
    · rfl
    · rcases hr.2.2 with hx | ⟨hx, hy, -⟩
      · rw [hx] at d2; norm_num at d2
      · linarith
  have xs : ∀ {u r : RouteNodeData}, LStar m0 m1 m2 cs y u → RStar m0 m1 m2 cs y r →
      (u.location.x = 200 ∨ u.location.x = 390) ∧ (r.location.x = 770 ∨ r.location.x = 960) := by
    intro u r hl hr
    exact ⟨hl.2.2.elim .inr fun hx => .inl hx.1, hr.2.2.elim .inl fun hx => .inr hx.1⟩
  rcases hcase with ⟨hl, hx | hx⟩ | ⟨hl, hx | hx⟩
  · exact absurd ⟨hl, hx⟩ hlong.1
  · refine ⟨only hl hx hcr, hl.2.1.trans hx.2.1.symm, .inl (xs hl hx), ?_⟩
    rw [hl.2.1]; exact hfree
  · exact absurd ⟨hl, hx⟩ hlong.2
  · refine ⟨only hl hx (crosses_swap hcr), hx.2.1.trans hl.2.1.symm, .inr (xs hl hx), ?_⟩
    rw [hx.2.1]; exact hfree

end

/-- **C38** for modules with three tables: a path passes through no other table than the second one, and through that one only
straight from one side to the other, at a height at which no relation ends at it. -/
theorem C38_three_tables {q : Queue} {QI : List Entry → Prop} (hq : q.Lawful QI) (m : Module)
    (hthree : (definitions m.entries).length = 3) (hsize : (placeNodes m.intoMir).2.size.height ≤ 1000000000) (doc' : Document)
    (g' : RouteGraph) (h : drawEdgePath q (laidOut m.intoMir) .new = .ok (doc', g')) (e : EdgeData) (he : e ∈ doc'.edges)
    (ps : List Point) (hps : e.pathPoints = some ps) (k i w : Nat) (a b : Point) (ha : ps[k]? = some a) (hb : ps[k + 1]? = some b)
    (hi : (lineNumbers (definitions m.entries))[i]? = some w)
    (hc : Crosses (tableRect (lineNumbers (definitions m.entries)) i w) a b) :
    i = 1 ∧ a.y = b.y ∧
      ((a.x = 200 ∨ a.x = 390) ∧ (b.x = 770 ∨ b.x = 960) ∨ (b.x = 200 ∨ b.x = 390) ∧ (a.x = 770 ∨ a.x = 960)) ∧
      ∀ o, (⟨430, a.y⟩, o) ∉ allEnds (lineNumbers (definitions m.entries)) (connections [] m.entries) ∧
        (⟨730, a.y⟩, o) ∉ allEnds (lineNumbers (definitions m.entries)) (connections [] m.entries) := by
  obtain ⟨con, hcon, hs⟩ := edge_route hq m hsize doc' g' h e he ps hps
  have hrow := oneRow_module m (by omega)
  have hlen : (lineNumbers (definitions m.entries)).length = 3 := by simpa [lineNumbers] using hthree
  generalize lineNumbers (definitions m.entries) = ns at hi hc hs hrow hlen
  obtain ⟨m0, m1, m2, rfl⟩ := List.length_eq_three.mp hlen
  exact three_passes hrow hcon hs ha hb hi hc

/-- **C40** for modules with at most three tables: the module is drawn exactly if no relation joins an end to itself or a table
to its own last or middle line.  (With four tables this is not enough: `C40_refuted`.) -/
theorem C40_three_tables {q : Queue} {QI : List Entry → Prop} (hq : q.Lawful QI) (m : Module)
    (hthree : (definitions m.entries).length ≤ 3) (hsize : (placeNodes m.intoMir).2.size.height ≤ 1000000000) :
    (∃ el, drawModule q m = .ok el) ↔ ∀ c ∈ connections [] m.entries, ¬ Meet (definitions m.entries) c.1 c.2 := by
  by_cases htwo : (definitions m.entries).length ≤ 2
  · exact C40_two_tables hq m htwo hsize
  constructor
  · rintro ⟨el, hel⟩ c hc hmeet
    obtain ⟨p, hp⟩ := C41_refuted hq m hsize c.1 c.2 hc hmeet
    rw [hel] at hp
    cases hp
  · intro hmeet
    refine drawn_unless_turn hq m hsize hmeet fun doc' g' h1 e he ps hpe k hk => ?_
    obtain ⟨a, b, c, d, r, ha, hb, hc, hd1, hd2, hne, htab, hcr⟩ :=
      turnsBack_crosses hq _ (drawable_intoMir m) hsize doc' g' h1 e he ps hpe k hk
    obtain ⟨con, hcon, hs⟩ := edge_route hq m hsize doc' g' h1 e he ps hpe
    obtain ⟨i, w, hi, rfl⟩ := (isTable_iff (drawable_intoMir m) r).mp htab
    rw [lineCounts_intoMir] at hi hcr
    change (lineNumbers (definitions m.entries))[i]? = some w at hi
    change Crosses (tableRect (lineNumbers (definitions m.entries)) i w) a b ∨
      Crosses (tableRect (lineNumbers (definitions m.entries)) i w) b c at hcr
    have hrow := oneRow_module m hthree
    have hlen : (lineNumbers (definitions m.entries)).length = 3 := by
      have : (lineNumbers (definitions m.entries)).length = (definitions m.entries).length := by simp [lineNumbers]
      omega
    generalize lineNumbers (definitions m.entries) = ns at hi hcr hs hrow hlen
    obtain ⟨m0, m1, m2, rfl⟩ := List.length_eq_three.mp hlen
    exact hne (three_turns hrow hcon hs ha hb hc hd1 hd2 hi hcr)

/-- `throughTable` has three tables and a path through the second one, and is drawn. -/
example : (definitions throughTable.entries).length = 3 ∧ (∃ el, drawModule BinHeap.queue throughTable = .ok el) ∧
    Crosses (tableRect (lineNumbers (definitions throughTable.entries)) 1 2) ⟨390, 205/2⟩ ⟨770, 205/2⟩ ∧
    ∀ o, (⟨430, 205/2⟩, o) ∉ allEnds (lineNumbers (definitions throughTable.entries)) (connections [] throughTable.entries) := by
  have hsize : (placeNodes throughTable.intoMir).2.size.height ≤ 1000000000 := by decide +kernel
  have hlen : (definitions throughTable.entries).length = 3 := by decide +kernel
  have hcr : Crosses (tableRect (lineNumbers (definitions throughTable.entries)) 1 2) ⟨390, 205/2⟩ ⟨770, 205/2⟩ := by
    refine ⟨1/2, by norm_num, by norm_num, ?_⟩
    rw [tableRect_row _ (by omega)]
    norm_num [lerp, Interior]
  refine ⟨hlen, (C40_three_tables BinHeap.lawful _ (by omega) hsize).mpr ?_, hcr, ?_⟩
  · have : connections [] throughTable.entries = [(.column 0 0, .column 2 0)] := by decide +kernel
    rw [this]
    simp [Meet]
  · obtain ⟨d, g, h1, h2⟩ := pathsOf_some throughTable_paths
    have hmem : (some [⟨350, 205/2⟩, ⟨390, 205/2⟩, ⟨770, 205/2⟩, ⟨810, 205/2⟩] : Option (List Point)) ∈ d.edges.map (·.pathPoints) := by
      rw [h2]; simp
    obtain ⟨e, he, hps⟩ := List.mem_map.mp hmem
    exact fun o => ((C38_three_tables BinHeap.lawful _ hlen hsize d g h1 e he _ hps 1 1 2 _ _ rfl rfl (by decide +kernel) hcr).2.2.2 o).1

/-- A module with three tables that is not drawn: the table `c` is joined to its last column. -/
example : ¬ ∃ el, drawModule BinHeap.queue ⟨none, [.definition ⟨c!"a", []⟩, .definition ⟨c!"b", []⟩,
    .definition ⟨c!"c", [⟨c!"x", .int, none⟩, ⟨c!"y", .int, none⟩]⟩, .relation ⟨.entity c!"a", .field c!"c" c!"x"⟩,
    .relation ⟨.entity c!"c", .field c!"c" c!"y"⟩]⟩ = .ok el := by
  rw [C40_three_tables BinHeap.lawful _ (by decide +kernel) (by decide +kernel)]
  intro h
  exact h (.table 2, .column 2 1) (by decide +kernel) ⟨rfl, _, rfl, .inl rfl⟩

end Seiren
