import Verif.Proofs.ThreeTables
namespace Seiren
open Spec

/-! # Shortest routes among three tables

A road through the second table leads to the first crossing behind it, or to the one behind the third table.  The second kind is
never part of a shortest route: behind the third table everything that can be reached can be reached from its other side, too. -/

section
variable {m0 m1 m2 : Nat} {cs : List (NodeRef × NodeRef)}

local notation "NS" => [m0, m1, m2]
local notation "PL" => places [m0, m1, m2] (allEnds [m0, m1, m2] cs)

theorem LStar.unique {y : Rat} {u u' : RouteNodeData} (h : LStar m0 m1 m2 cs y u) (h' : LStar m0 m1 m2 cs y u') (hu : u ∈ PL)
    (hu' : u' ∈ PL) : u = u' := by
  obtain ⟨h1, h2, h3⟩ := h
  obtain ⟨h1', h2', h3'⟩ := h'
  rcases h3 with h3 | ⟨h3, -, h4⟩ <;> rcases h3' with h3' | ⟨h3', -, h4'⟩
  · rw [rnd_eq h1 h3 h2, rnd_eq h1' h3' h2']
  · rw [rnd_eq h1 h3 h2] at hu; exact absurd hu h4'
  · rw [rnd_eq h1' h3' h2'] at hu'; exact absurd hu' h4
  · rw [rnd_eq h1 h3 h2, rnd_eq h1' h3' h2']

theorem RStar.unique {y : Rat} {u u' : RouteNodeData} (h : RStar m0 m1 m2 cs y u) (h' : RStar m0 m1 m2 cs y u') (hu : u ∈ PL)
    (hu' : u' ∈ PL) : u = u' := by
  obtain ⟨h1, h2, h3⟩ := h
  obtain ⟨h1', h2', h3'⟩ := h'
  rcases h3 with h3 | ⟨h3, -, h4⟩ <;> rcases h3' with h3' | ⟨h3', -, h4'⟩
  · rw [rnd_eq h1 h3 h2, rnd_eq h1' h3' h2']
  · rw [rnd_eq h1 h3 h2] at hu; exact absurd hu h4'
  · rw [rnd_eq h1' h3' h2'] at hu'; exact absurd hu' h4
  · rw [rnd_eq h1 h3 h2, rnd_eq h1' h3' h2']

/-- To the left of the first crossing behind the second table, the next place is in front of that table. -/
theorem left_of_rstar (h : OneRow NS cs) {y : Rat} (hg : Gap m0 m1 m2 cs y) {r m : RouteNodeData} (hr : RStar m0 m1 m2 cs y r)
    (hm : m ∈ PL) (ha : Ahead .left r m ∨ Ahead .right m r) : m.location.y = y ∧ m.location.x < 430 := by
  have hy : m.location.y = y ∧ m.location.x < r.location.x ∧ Open .right m := by
    rcases ha with ⟨⟨h1, h2⟩, -, h3⟩ | ⟨⟨h1, h2⟩, h3, -⟩
    · exact ⟨h1.trans hr.2.1, h2, h3⟩
    · exact ⟨h1.symm.trans hr.2.1, h2, h3⟩
  obtain ⟨hy, hx, ho⟩ := hy
  obtain ⟨r1, r2, r3⟩ := hr
  subst hy
  refine ⟨rfl, ?_⟩
  have hrx : r.location.x ≤ 960 := by rcases r3 with r3 | ⟨r3, -⟩ <;> linarith
  rcases row_cases h hm hg with ⟨ho', hx', hb⟩ | ⟨ho', hx', hb⟩ | ⟨ho', hx', hb⟩ | ⟨ho', hx', hb⟩ | ⟨hx', hb⟩ | ⟨hx', hb, hlt⟩ | ⟨ho', hx'⟩
  · rcases hx' with hx' | hx' <;> linarith
  · rcases hx' with hx' | hx'
    · rcases r3 with r3 | ⟨r3, -, r4⟩
      · linarith
      · rw [rnd_eq ho' hx' rfl] at hm; exact absurd hm r4
    · linarith
  · linarith
  · rcases r3 with r3 | ⟨r3, -, r4⟩ <;> linarith
  · rcases hx' with ⟨-, hx'⟩ | ⟨-, hx'⟩ <;> linarith
  · rcases hx' with ⟨hx', -⟩ | ⟨-, hx'⟩
    · exact (not_open ho hx' (by simp)).elim
    · linarith
  · exact (not_open ho ho' (by simp)).elim

/-- To the right of the last crossing before the second table, the next place is behind that table. -/
theorem right_of_lstar (h : OneRow NS cs) {y : Rat} (hg : Gap m0 m1 m2 cs y) {u m : RouteNodeData} (hu : LStar m0 m1 m2 cs y u)
    (hm : m ∈ PL) (ha : Ahead .right u m ∨ Ahead .left m u) : m.location.y = y ∧ 730 < m.location.x := by
  have hy : m.location.y = y ∧ u.location.x < m.location.x ∧ Open .left m := by
    rcases ha with ⟨⟨h1, h2⟩, -, h3⟩ | ⟨⟨h1, h2⟩, h3, -⟩
    · exact ⟨h1.trans hu.2.1, h2, h3⟩
    · exact ⟨h1.symm.trans hu.2.1, h2, h3⟩
  obtain ⟨hy, hx, ho⟩ := hy
  obtain ⟨r1, r2, r3⟩ := hu
  subst hy
  refine ⟨rfl, ?_⟩
  have hrx : 200 ≤ u.location.x := by rcases r3 with r3 | ⟨r3, -⟩ <;> linarith
  rcases row_cases h hm hg with ⟨ho', hx', hb⟩ | ⟨ho', hx', hb⟩ | ⟨ho', hx', hb⟩ | ⟨ho', hx', hb⟩ | ⟨hx', hb, hlt⟩ | ⟨hx', hb⟩ | ⟨ho', hx'⟩
  · rcases hx' with hx' | hx'
    · linarith
    · rcases r3 with r3 | ⟨r3, -, r4⟩
      · linarith
      · rw [rnd_eq ho' hx' rfl] at hm; exact absurd hm r4
  · rcases hx' with hx' | hx' <;> linarith
  · rcases r3 with r3 | ⟨r3, -, r4⟩ <;> linarith
  · linarith
  · rcases hx' with ⟨-, hx'⟩ | ⟨hx', -⟩
    · linarith
    · exact (not_open ho hx' (by simp)).elim
  · rcases hx' with ⟨-, hx'⟩ | ⟨-, hx'⟩ <;> linarith
  · exact (not_open ho ho' (by simp)).elim

/-- The last crossing before the second table and the first behind it are joined by a road. -/
theorem star_road (h : OneRow NS cs) {y : Rat} (hg : Gap m0 m1 m2 cs y) {u r : RouteNodeData} (hu : LStar m0 m1 m2 cs y u)
    (hr : RStar m0 m1 m2 cs y r) (hum : u ∈ PL) (hrm : r ∈ PL) : RoadBetween NS PL r u := by
  obtain ⟨a, ha⟩ := List.getElem?_of_mem hrm
  have hur : u.location.x < r.location.x := by
    rcases hu.2.2 with hx | ⟨hx, -⟩ <;> rcases hr.2.2 with hx' | ⟨hx', -⟩ <;> rw [hx, hx'] <;> norm_num
  obtain ⟨b, m, hb, hn⟩ := neighbour_exists (ns := NS) (d := .left) ha hum ⟨⟨hu.2.1.trans hr.2.1.symm, hur⟩, .inl hr.1, .inl hu.1⟩
  have hmm := List.mem_of_getElem? hb
  obtain ⟨hy, hx⟩ := left_of_rstar h hg hr hmm (.inl (neighbour_ahead hn ha hb))
  have hrx : 770 ≤ r.location.x := by rcases hr.2.2 with hx' | ⟨hx', -⟩ <;> linarith
  obtain ⟨-, hl, -⟩ := cross_left h hn ha hb (k := 1) (w := m1) rfl
    ⟨by push_cast; linarith, by push_cast; linarith, by rw [hr.2.1]; exact hg.above, by rw [hr.2.1]; exact hg.below⟩
  rw [hr.2.1] at hl
  rw [hu.unique hl hum hmm]
  exact ⟨a, b, ha, hb, .left, .inl hn⟩

/-! ## Behind the third table -/

/-- Places on a street are crossings. -/
theorem street_none (h : OneRow NS cs) {n : RouteNodeData} (hn : n ∈ PL) {i : Nat} (hx : n.location.x = 10 + 380 * (i : Rat)) :
    n.orientation = none := by
  rcases mem_places.mp hn with ⟨ho, -⟩ | ⟨o, ho, he⟩
  · exact ho
  · exfalso
    obtain ⟨k, w, hk, hc⟩ := allEnds_cases h he
    have h4 : ∀ {a : Rat}, n.location.x = a + 380 * (k : Rat) → a = 50 ∨ a = 200 ∨ a = 350 → False := by
      intro a ha hcase
      rcases street_off (k := k) hx with h3 | h3 <;> rcases hcase with rfl | rfl | rfl <;> linarith
    cases o <;> simp only at hc
    · rw [hc.1] at h4; exact h4 rfl (.inr (.inl rfl))
    · rw [hc] at h4; exact h4 rfl (.inr (.inl rfl))
    · exact h4 hc.1 (.inl rfl)
    · exact h4 hc.1 (.inr (.inr rfl))

/-- Every crossing on the last street has its counterpart on the other side of the third table. -/
theorem mirror (h : OneRow NS cs) {y : Rat} (hp : (⟨⟨1150, y⟩, none⟩ : RouteNodeData) ∈ PL) :
    (⟨⟨770, y⟩, none⟩ : RouteNodeData) ∈ PL := by
  rcases mem_places.mp hp with ⟨-, hc⟩ | ⟨o, ho, -⟩
  · obtain ⟨-, hcc | ⟨c, o, j, hce, hj, hs, he⟩⟩ := mem_crossings.mp hc
    · obtain ⟨k, w, hk, hx, hy⟩ := (mem_corners h).mp hcc
      rcases three_idx hk with ⟨rfl, rfl⟩ | ⟨rfl, rfl⟩ | ⟨rfl, rfl⟩
      · norm_num at hx
      · norm_num at hx
      · simp only at hy
        exact corner_place h (i := 2) ((mem_corners h).mpr ⟨2, w, hk, .inl (by norm_num), hy⟩) (by norm_num)
    · obtain ⟨k, w, hk, hcase⟩ := allEnds_cases h hce
      have hup : ∀ {x : Rat}, x = 200 + 380 * (k : Rat) → (1150 : Rat) ≠ x := by
        rintro x rfl he
        rcases three_idx hk with ⟨rfl, rfl⟩ | ⟨rfl, rfl⟩ | ⟨rfl, rfl⟩ <;> norm_num at he
      cases o <;> simp only at hcase <;> simp only [crossingAt, Point.mk.injEq] at he
      · exact absurd (he.1) (hup (by rw [hcase.1]))
      · exact absurd (he.1) (hup (by rw [hcase]))
      · exfalso
        have h1 := hs.1
        rw [← he.1, hcase.1] at h1
        rcases three_idx hk with ⟨rfl, rfl⟩ | ⟨rfl, rfl⟩ | ⟨rfl, rfl⟩ <;> norm_num at h1
      · obtain ⟨he1, rfl⟩ := he
        rcases Nat.lt_or_ge k 2 with hlt | hge
        · refine street_place h hce (.inr rfl) (i := 2) (j := ⟨770, 10⟩) (by simp [corners_three]) (by norm_num) ⟨?_, ?_⟩
          · rw [hcase.1]
            have : k = 0 ∨ k = 1 := by omega
            rcases this with rfl | rfl <;> norm_num
          · intro r hr hat hlt
            have := hs.2 r hr hat hlt
            rw [← he1] at this
            simp only
            linarith
        · have hk2 : k = 2 := by rcases three_idx hk with ⟨rfl, rfl⟩ | ⟨rfl, rfl⟩ | ⟨rfl, rfl⟩ <;> omega
          subst hk2
          have h4 := hcase.2.2.2
          norm_num at h4
          exact street_place h h4 (.inl rfl) (i := 2) (j := ⟨770, 10⟩) (by simp [corners_three]) (by norm_num) sees_left2
  · cases ho

theorem segmentCost_add {p q r : Point} (hx : q.x = p.x) (hx' : r.x = p.x) (h1 : p.y < q.y) (h2 : q.y < r.y) :
    segmentCost p q + segmentCost q r ≤ segmentCost p r := by
  unfold segmentCost
  rw [Rat.le_floor_iff]
  have a := Rat.floor_le (|q.x - p.x| + |q.y - p.y|)
  have b := Rat.floor_le (|r.x - q.x| + |r.y - q.y|)
  push_cast
  rw [hx, sub_self, abs_zero, abs_of_pos (by linarith : 0 < q.y - p.y)] at a
  rw [hx, hx', sub_self, abs_zero, abs_of_pos (by linarith : 0 < r.y - q.y)] at b
  rw [hx, hx', sub_self, abs_zero, abs_of_pos (by linarith : 0 < r.y - p.y), abs_of_pos (by linarith : 0 < q.y - p.y),
    abs_of_pos (by linarith : 0 < r.y - q.y)]
  linarith

/-- A street can be followed from any crossing down to any other. -/
theorem street_down (h : OneRow NS cs) {i : Nat} {x : Rat} (hx : x = 10 + 380 * (i : Rat)) {y' : Rat}
    (hz : (⟨⟨x, y'⟩, none⟩ : RouteNodeData) ∈ PL) : ∀ (N : Nat) (y : Rat), (⟨⟨x, y⟩, none⟩ : RouteNodeData) ∈ PL → y < y' →
      ((PL).filter fun p => p.location.x = x ∧ y < p.location.y).length ≤ N →
      ∃ c, Trip NS PL ⟨⟨x, y⟩, none⟩ ⟨⟨x, y'⟩, none⟩ c ∧ c ≤ segmentCost ⟨x, y⟩ ⟨x, y'⟩ := by
  intro N
  induction N with
  | zero =>
    intro y hn hlt hN
    have : (⟨⟨x, y'⟩, none⟩ : RouteNodeData) ∈ (PL).filter fun p => p.location.x = x ∧ y < p.location.y :=
      List.mem_filter.mpr ⟨hz, by simp [hlt]⟩
    rw [List.eq_nil_of_length_eq_zero (Nat.le_zero.mp hN)] at this
    cases this
  | succ N ih =>
    intro y hn hlt hN
    obtain ⟨a, ha⟩ := List.getElem?_of_mem hn
    have hah : Ahead .down (⟨⟨x, y⟩, none⟩ : RouteNodeData) ⟨⟨x, y'⟩, none⟩ := ⟨⟨rfl, hlt⟩, .inl rfl, .inl rfl⟩
    obtain ⟨b, m, hb, hnb⟩ := neighbour_exists (ns := NS) ha hz hah
    have hmm := List.mem_of_getElem? hb
    have hroad : RoadBetween NS PL ⟨⟨x, y⟩, none⟩ m := ⟨a, b, ha, hb, .down, .inl hnb⟩
    obtain ⟨⟨hmx, hmy⟩, -, -⟩ := neighbour_ahead hnb ha hb
    simp only at hmx hmy
    have hle := neighbour_le hnb ha hb hz hah (by
      rintro ⟨-, r, hr, t, t0, t1, h1, h2, -⟩
      obtain ⟨k, w, hk, rfl⟩ := (mem_tableRects _ _).mp hr
      rw [tableRect_row _ (h.lt hk)] at h1 h2
      simp only [inside, lerp, sub_self, mul_zero, add_zero] at h1 h2
      rcases street_off (k := k) hx with h3 | h3 <;> linarith)
    simp only [distance, hmx, sub_self, abs_zero, zero_add] at hle
    rw [abs_of_neg (by linarith), abs_of_neg (by linarith)] at hle
    have em : m = ⟨⟨x, m.location.y⟩, none⟩ := rnd_eq (street_none h hmm (hmx.trans hx)) hmx rfl
    generalize m.location.y = ym at em hmy hle
    subst em
    rcases eq_or_lt_of_le (by linarith : ym ≤ y') with rfl | hlt'
    · exact ⟨_, Trip.one hroad, le_refl _⟩
    · obtain ⟨c, hc, hcl⟩ := ih ym hmm hlt' (by
        have hsub : ((PL).filter fun p => p.location.x = x ∧ ym < p.location.y).length <
            ((PL).filter fun p => p.location.x = x ∧ y < p.location.y).length := by
          have e : (PL).filter (fun p => p.location.x = x ∧ ym < p.location.y) =
              ((PL).filter fun p => p.location.x = x ∧ y < p.location.y).filter fun p => decide (ym < p.location.y) := by
            rw [List.filter_filter]
            apply List.filter_congr
            intro p _
            simp only [Bool.decide_and, ← Bool.and_assoc]
            by_cases h1 : ym < p.location.y
            · have h2 : y < p.location.y := lt_trans hmy h1
              simp [h1, h2]
            · simp [h1]
          rw [e]
          have hmf : (⟨⟨x, ym⟩, none⟩ : RouteNodeData) ∈ (PL).filter fun p => p.location.x = x ∧ y < p.location.y :=
            List.mem_filter.mpr ⟨hmm, by simp [hmy]⟩
          exact List.length_filter_lt_length_iff_exists.mpr ⟨_, hmf, by simp⟩
        omega)
      refine ⟨_, .go hroad hc, ?_⟩
      have := segmentCost_add (p := ⟨x, y⟩) (q := ⟨x, ym⟩) (r := ⟨x, y'⟩) rfl rfl hmy hlt'
      simp only
      omega

theorem street_trip (h : OneRow NS cs) {i : Nat} {x : Rat} (hx : x = 10 + 380 * (i : Rat)) {y y' : Rat}
    (hn : (⟨⟨x, y⟩, none⟩ : RouteNodeData) ∈ PL) (hz : (⟨⟨x, y'⟩, none⟩ : RouteNodeData) ∈ PL) :
    ∃ c, Trip NS PL ⟨⟨x, y⟩, none⟩ ⟨⟨x, y'⟩, none⟩ c ∧ c ≤ segmentCost ⟨x, y⟩ ⟨x, y'⟩ := by
  rcases lt_trichotomy y y' with hlt | rfl | hlt
  · exact street_down h hx hz _ y hn hlt (le_refl _)
  · exact ⟨0, .here hn, segmentCost_nonneg _ _⟩
  · obtain ⟨c, hc, hcl⟩ := street_down h hx hn _ y' hz hlt (le_refl _)
    exact ⟨c, hc.symm, by rw [segmentCost_comm]; exact hcl⟩

/-- A left end of the third table is joined to the street before it. -/
theorem road_left2 (h : OneRow NS cs) {y : Rat} (hn : (⟨⟨810, y⟩, some .left⟩ : RouteNodeData) ∈ PL)
    (hz : (⟨⟨770, y⟩, none⟩ : RouteNodeData) ∈ PL) : RoadBetween NS PL ⟨⟨770, y⟩, none⟩ ⟨⟨810, y⟩, some .left⟩ := by
  obtain ⟨a, ha⟩ := List.getElem?_of_mem hn
  have hah : Ahead .left (⟨⟨810, y⟩, some .left⟩ : RouteNodeData) ⟨⟨770, y⟩, none⟩ := ⟨⟨rfl, by norm_num⟩, .inr rfl, .inl rfl⟩
  obtain ⟨b, m, hb, hnb⟩ := neighbour_exists (ns := NS) ha hz hah
  have hmm := List.mem_of_getElem? hb
  obtain ⟨⟨hmy, hmx⟩, -, ho⟩ := neighbour_ahead hnb ha hb
  simp only at hmx hmy
  have hle := neighbour_le hnb ha hb hz hah (free_left h rfl (by norm_num) (by
    rintro k w hk ⟨d1, d2, d3, d4⟩
    rcases three_idx hk with ⟨rfl, rfl⟩ | ⟨rfl, rfl⟩ | ⟨rfl, rfl⟩ <;>
      first | (norm_num at d1; done) | norm_num at d2))
  simp only [distance, hmy, sub_self, abs_zero, add_zero] at hle
  rw [abs_of_pos (by linarith), abs_of_pos (by norm_num)] at hle
  have hx : m.location.x = 770 := by
    obtain ⟨i, hi, hcase⟩ := place_x h hmm
    have : i = 0 ∨ i = 1 ∨ i = 2 ∨ i = 3 := by omega
    rcases this with rfl | rfl | rfl | rfl <;> rcases hcase with ⟨-, hx⟩ | ⟨-, ⟨-, hx⟩ | hx | ⟨-, hx⟩⟩ <;> norm_num at hx <;> linarith
  rw [rnd_eq (street_none h hmm (i := 2) (by rw [hx]; norm_num)) hx hmy] at hb
  exact ⟨b, a, hb, ha, .left, .inr hnb⟩

/-- A place above or below the middle of a table that can be left to the side is a crossing. -/
theorem middle_none (h : OneRow NS cs) {n : RouteNodeData} (hn : n ∈ PL) {i : Nat} (hx : n.location.x = 200 + 380 * (i : Rat))
    (ho : Open .left n ∨ Open .right n) : n.orientation = none := by
  rcases mem_places.mp hn with ⟨ho', -⟩ | ⟨o, ho', he⟩
  · exact ho'
  · exfalso
    obtain ⟨k, w, hk, hc⟩ := allEnds_cases h he
    have off : ∀ {a : Rat}, a = 50 ∨ a = 350 → 200 + 380 * (i : Rat) ≠ a + 380 * (k : Rat) := by
      intro a ha he
      have : (i : Rat) ≤ k ∨ (k : Rat) + 1 ≤ i := by
        rcases Nat.lt_or_ge k i with hlt | hge
        · right; exact_mod_cast hlt
        · left; exact_mod_cast hge
      have h2 : (k : Rat) ≤ i ∨ (i : Rat) + 1 ≤ k := by
        rcases Nat.lt_or_ge i k with hlt | hge
        · right; exact_mod_cast hlt
        · left; exact_mod_cast hge
      rcases ha with rfl | rfl <;> rcases this with h1 | h1 <;> rcases h2 with h2 | h2 <;> linarith
    cases o <;> simp only at hc
    · rcases ho with ho | ho <;> exact not_open ho ho' (by simp)
    · rcases ho with ho | ho <;> exact not_open ho ho' (by simp)
    · exact off (.inl rfl) (hx.symm.trans hc.1)
    · exact off (.inr rfl) (hx.symm.trans hc.1)

/-- Above and below the third table the street before it is joined to the crossing at its middle. -/
theorem road_middle2 (h : OneRow NS cs) {y : Rat} (hn : (⟨⟨770, y⟩, none⟩ : RouteNodeData) ∈ PL)
    (hz : (⟨⟨960, y⟩, none⟩ : RouteNodeData) ∈ PL) : RoadBetween NS PL ⟨⟨770, y⟩, none⟩ ⟨⟨960, y⟩, none⟩ := by
  have hout : ¬ (50 < y ∧ y < 50 + 35 * (m2 : Rat)) := by
    rintro ⟨h1, h2⟩
    rcases inside_place h hz (k := 2) (m := m2) rfl h1 h2 (by norm_num) (by norm_num) with ⟨⟨h1, -⟩ | ⟨h1, -⟩, -⟩ <;> cases h1
  obtain ⟨a, ha⟩ := List.getElem?_of_mem hn
  have hah : Ahead .right (⟨⟨770, y⟩, none⟩ : RouteNodeData) ⟨⟨960, y⟩, none⟩ := ⟨⟨rfl, by norm_num⟩, .inl rfl, .inl rfl⟩
  obtain ⟨b, m, hb, hnb⟩ := neighbour_exists (ns := NS) ha hz hah
  have hmm := List.mem_of_getElem? hb
  obtain ⟨⟨hmy, hmx⟩, -, ho⟩ := neighbour_ahead hnb ha hb
  simp only at hmx hmy
  have hle := neighbour_le hnb ha hb hz hah (free_right h rfl (by norm_num) (by
    rintro k w hk ⟨d1, d2, d3, d4⟩
    rcases three_idx hk with ⟨rfl, rfl⟩ | ⟨rfl, rfl⟩ | ⟨rfl, rfl⟩
    · norm_num at d1
    · norm_num at d1
    · exact hout ⟨d3, d4⟩))
  simp only [distance, hmy, sub_self, abs_zero, add_zero] at hle
  rw [abs_of_neg (by linarith), abs_of_neg (by norm_num)] at hle
  have hx : m.location.x = 960 := by
    obtain ⟨i, hi, hcase⟩ := place_x h hmm
    have : i = 0 ∨ i = 1 ∨ i = 2 ∨ i = 3 := by omega
    rcases this with rfl | rfl | rfl | rfl <;> rcases hcase with ⟨-, hx⟩ | ⟨-, ⟨ho', hx⟩ | hx | ⟨-, hx⟩⟩ <;> norm_num at hx <;>
      first | linarith | skip
    exfalso
    rcases place_cases h hmm with ⟨ho, -⟩ | ⟨ho, -⟩ | ⟨ho, -⟩ | ⟨k, w, hk, he⟩
    · rw [ho] at ho'; cases ho'
    · rw [ho] at ho'; cases ho'
    · rw [ho] at ho'; cases ho'
    · rcases he with ⟨-, hx', h1, h2, -⟩ | ⟨ho, -⟩ | ⟨ho, -⟩ | ⟨ho, -⟩
      · rw [hx] at hx'
        rcases three_idx hk with ⟨rfl, rfl⟩ | ⟨rfl, rfl⟩ | ⟨rfl, rfl⟩
        · norm_num at hx'
        · norm_num at hx'
        · rw [hmy] at h1 h2; exact hout ⟨h1, h2⟩
      · rw [ho] at ho'; cases ho'
      · rw [ho] at ho'; cases ho'
      · rw [ho] at ho'; cases ho'
  rw [rnd_eq (middle_none h hmm (i := 2) (by rw [hx]; norm_num) (.inl ho)) hx hmy] at hb
  exact ⟨a, b, ha, hb, .right, .inl hnb⟩

theorem segmentCost_row {x x' y : Rat} (hx : x ≤ x') : segmentCost ⟨x, y⟩ ⟨x', y⟩ = (x' - x).floor := by
  unfold segmentCost
  simp only [sub_self, abs_zero, add_zero, abs_of_nonneg (by linarith : 0 ≤ x' - x)]

/-- The places to which a crossing on the last street is joined. -/
theorem last_street_roads (h : OneRow NS cs) {y : Rat} {m : RouteNodeData}
    (hr : RoadBetween NS PL ⟨⟨1150, y⟩, none⟩ m) : m.location.x = 1150 ∧ m.orientation = none ∨
      m = ⟨⟨1110, y⟩, some .right⟩ ∨ m = ⟨⟨960, y⟩, none⟩ ∨ m = ⟨⟨770, y⟩, none⟩ ∨
      (Gap m0 m1 m2 cs y ∧ LStar m0 m1 m2 cs y m) := by
  have hmm := hr.symm.left
  have hnm := hr.left
  have h770 := mirror h hnm
  obtain ⟨a, b, ha, hb, d, hd⟩ := hr
  -- vertical roads, and roads to the left
  have side : m.location.x = 1150 ∨ NeighbourIn NS PL .left a b ∨ NeighbourIn NS PL .right b a := by
    have far : ∀ {x : Rat}, m.location.x = x → x ≤ 1150 := by
      rintro x rfl
      obtain ⟨i, hi, hcase⟩ := place_x h hmm
      have : i = 0 ∨ i = 1 ∨ i = 2 ∨ i = 3 := by omega
      rcases this with rfl | rfl | rfl | rfl <;> rcases hcase with ⟨-, hx⟩ | ⟨hi', ⟨-, hx⟩ | hx | ⟨-, hx⟩⟩ <;>
        first | omega | (rw [hx]; norm_num)
    rcases hd with hd | hd
    · have hah := (neighbour_ahead hd ha hb).1
      cases d
      · exact .inl hah.1
      · exact .inl hah.1
      · exact .inr (.inl hd)
      · have := far rfl
        have := hah.2
        simp only at this
        linarith
    · have hah := (neighbour_ahead hd hb ha).1
      cases d
      · exact .inl hah.1.symm
      · exact .inl hah.1.symm
      · have := far rfl
        have := hah.2
        simp only at this
        linarith
      · exact .inr (.inr hd)
  rcases side with hx | hd
  · exact .inl ⟨hx, street_none h hmm (i := 3) (by rw [hx]; norm_num)⟩
  · right
    have hyx : m.location.y = y ∧ m.location.x < 1150 ∧ Open .right m := by
      rcases hd with hd | hd
      · obtain ⟨⟨h1, h2⟩, -, h3⟩ := neighbour_ahead hd ha hb
        exact ⟨h1, h2, h3⟩
      · obtain ⟨⟨h1, h2⟩, h3, -⟩ := neighbour_ahead hd hb ha
        exact ⟨h1.symm, h2, h3⟩
    obtain ⟨hy, hx, ho⟩ := hyx
    by_cases hcr : ∃ k w, NS[k]? = some w ∧ PassesAt k w m.location.x 1150 y
    · obtain ⟨k, w, hk, hp⟩ := hcr
      rcases hd with hd | hd
      · obtain ⟨-, -, h1⟩ := cross_left h hd ha hb hk hp
        exfalso
        rcases h1.2.2 with h1 | ⟨h1, -⟩ <;> norm_num at h1
      · rw [← hy] at hp
        obtain ⟨h1, h2, -⟩ := cross_right h hd hb ha hk hp
        rw [hy] at h1 h2
        exact .inr (.inr (.inr ⟨h1, h2⟩))
    · push Not at hcr
      have hge : 770 ≤ m.location.x := by
        by_contra hlt
        push Not at hlt
        rcases hd with hd | hd
        · refine not_over_left h hd ha hb h770 (.inl rfl) rfl (by norm_num) hlt ?_
          rintro k w hk ⟨d1, d2, d3, d4⟩
          simp only at d1 d2 d3 d4
          exact hcr k w hk ⟨by linarith, d2, d3, d4⟩
        · refine not_over_right h hd hb ha h770 (.inl rfl) hy.symm hlt (by norm_num) ?_
          rintro k w hk ⟨d1, d2, d3, d4⟩
          simp only at d1 d2 d3 d4
          rw [hy] at d3 d4
          exact hcr k w hk ⟨d1, by linarith, d3, d4⟩
      obtain ⟨i, hi, hcase⟩ := place_x h hmm
      have : i = 0 ∨ i = 1 ∨ i = 2 ∨ i = 3 := by omega
      rcases this with rfl | rfl | rfl | rfl <;> rcases hcase with ⟨ho', hx'⟩ | ⟨hi', ⟨ho', hx'⟩ | hx' | ⟨ho', hx'⟩⟩ <;> norm_num at hx' <;>
        first | (exfalso; linarith) | skip
      · exact .inr (.inr (.inl (rnd_eq ho' hx' hy)))
      · exact (not_open ho ho' (by simp)).elim
      · exact .inr (.inl (rnd_eq (middle_none h hmm (i := 2) (by rw [hx']; norm_num) (.inr ho)) hx' hy))
      · exact .inl (rnd_eq ho' hx' hy)

/-- The right end of the third table is joined to the last street only. -/
theorem right2_roads (h : OneRow NS cs) {y : Rat} {m : RouteNodeData}
    (hr : RoadBetween NS PL ⟨⟨1110, y⟩, some .right⟩ m) : m = ⟨⟨1150, y⟩, none⟩ := by
  have hmm := hr.symm.left
  obtain ⟨a, b, ha, hb, d, hd⟩ := hr
  have hyx : m.location.y = y ∧ 1110 < m.location.x := by
    rcases hd with hd | hd
    · obtain ⟨h1, h2, -⟩ := neighbour_ahead hd ha hb
      cases d
      · exact (not_open h2 rfl (by simp)).elim
      · exact (not_open h2 rfl (by simp)).elim
      · exact (not_open h2 rfl (by simp)).elim
      · exact h1
    · obtain ⟨h1, -, h2⟩ := neighbour_ahead hd hb ha
      cases d
      · exact (not_open h2 rfl (by simp [opposite])).elim
      · exact (not_open h2 rfl (by simp [opposite])).elim
      · exact ⟨h1.1.symm, h1.2⟩
      · exact (not_open h2 rfl (by simp [opposite])).elim
  obtain ⟨hy, hx⟩ := hyx
  obtain ⟨i, hi, hcase⟩ := place_x h hmm
  have : i = 0 ∨ i = 1 ∨ i = 2 ∨ i = 3 := by omega
  rcases this with rfl | rfl | rfl | rfl <;> rcases hcase with ⟨ho', hx'⟩ | ⟨hi', ⟨ho', hx'⟩ | hx' | ⟨ho', hx'⟩⟩ <;> norm_num at hx' <;>
    first | (exfalso; linarith) | skip
  exact rnd_eq ho' hx' hy

/-- The end at the left of the third table beside the one at the right. -/
theorem left2_end {r : NodeRef} (h : OneRow NS cs) (hr : ValidRef NS r) {y : Rat} {o : Orientation}
    (he : (⟨1110, y⟩, o) ∈ endsOf NS r) : (⟨810, y⟩, .left) ∈ endsOf NS r := by
  obtain ⟨k, w, hk, hc⟩ := endsOf_cases h.few h.pos hr he
  cases o <;> simp only at hc
  · exfalso
    have h1 := hc.1
    rw [Point.mk.injEq] at h1
    have h1 := h1.1
    rcases three_idx hk with ⟨rfl, rfl⟩ | ⟨rfl, rfl⟩ | ⟨rfl, rfl⟩ <;> norm_num at h1
  · exfalso
    rw [Point.mk.injEq] at hc
    have h1 := hc.1
    rcases three_idx hk with ⟨rfl, rfl⟩ | ⟨rfl, rfl⟩ | ⟨rfl, rfl⟩ <;> norm_num at h1
  · exfalso
    have h1 := hc.1
    rcases three_idx hk with ⟨rfl, rfl⟩ | ⟨rfl, rfl⟩ | ⟨rfl, rfl⟩ <;> norm_num at h1
  · obtain ⟨h1, -, -, h4⟩ := hc
    rcases three_idx hk with ⟨rfl, rfl⟩ | ⟨rfl, rfl⟩ | ⟨rfl, rfl⟩
    · norm_num at h1
    · norm_num at h1
    · norm_num at h4
      exact h4

theorem last_street_end {r : NodeRef} (h : OneRow NS cs) (hr : ValidRef NS r) {y : Rat} {o : Orientation} :
    (⟨1150, y⟩, o) ∉ endsOf NS r := by
  intro he
  obtain ⟨k, w, hk, hc⟩ := endsOf_cases h.few h.pos hr he
  cases o <;> simp only [Point.mk.injEq] at hc
  · have h1 := hc.1.1
    rcases three_idx hk with ⟨rfl, rfl⟩ | ⟨rfl, rfl⟩ | ⟨rfl, rfl⟩ <;> norm_num at h1
  · have h1 := hc.1
    rcases three_idx hk with ⟨rfl, rfl⟩ | ⟨rfl, rfl⟩ | ⟨rfl, rfl⟩ <;> norm_num at h1
  · have h1 := hc.1
    rcases three_idx hk with ⟨rfl, rfl⟩ | ⟨rfl, rfl⟩ | ⟨rfl, rfl⟩ <;> norm_num at h1
  · have h1 := hc.1
    rcases three_idx hk with ⟨rfl, rfl⟩ | ⟨rfl, rfl⟩ | ⟨rfl, rfl⟩ <;> norm_num at h1

/-- An end that can be reached from the last street, or another end of the same table or column, can be reached at no greater
cost from the other side of the third table. -/
theorem mirror_trip (h : OneRow NS cs) {r : NodeRef} (hv : ValidRef NS r) (hsub : ∀ e ∈ endsOf NS r, e ∈ allEnds NS cs)
    {n z : RouteNodeData} {c : Int} (ht : Trip NS PL n z c) (hz : ∃ o, (z.location, o) ∈ endsOf NS r) :
    (∀ y, n = ⟨⟨1150, y⟩, none⟩ → ∃ z' c', Trip NS PL ⟨⟨770, y⟩, none⟩ z' c' ∧ c' ≤ c ∧ ∃ o, (z'.location, o) ∈ endsOf NS r) ∧
    (∀ y, n = ⟨⟨1110, y⟩, some .right⟩ →
      ∃ z' c', Trip NS PL ⟨⟨810, y⟩, some .left⟩ z' c' ∧ c' ≤ c ∧ ∃ o, (z'.location, o) ∈ endsOf NS r) := by
  have hend : ∀ {p : Point} {o : Orientation}, (p, o) ∈ endsOf NS r → (⟨p, some o⟩ : RouteNodeData) ∈ PL := fun he =>
    mem_places.mpr (.inr ⟨_, rfl, hsub _ he⟩)
  induction ht with
  | here hn =>
    obtain ⟨o, ho⟩ := hz
    constructor
    · rintro y rfl
      exact absurd ho (last_street_end h hv)
    · rintro y rfl
      have hl := left2_end h hv ho
      exact ⟨_, 0, .here (hend hl), le_refl _, _, hl⟩
  | @go n m z c hr ht ih =>
    obtain ⟨ih1, ih2⟩ := ih hz
    constructor
    · rintro y rfl
      have h770 := mirror h hr.left
      rcases last_street_roads h hr with ⟨hx, ho⟩ | rfl | rfl | rfl | ⟨hg, hl⟩
      · obtain ⟨z', c', h1, h2, h3⟩ := ih1 _ (rnd_eq ho hx rfl)
        obtain ⟨c1, h4, h5⟩ := street_trip h (i := 2) (x := 770) (by norm_num) h770 h1.left
        refine ⟨z', _, h4.append h1, ?_, h3⟩
        have e : segmentCost ⟨1150, y⟩ m.location = segmentCost ⟨770, y⟩ ⟨770, m.location.y⟩ := by
          unfold segmentCost
          simp only [hx, sub_self]
        simp only [e]
        omega
      · obtain ⟨z', c', h1, h2, h3⟩ := ih2 y rfl
        refine ⟨z', _, .go (road_left2 h h1.left h770) h1, ?_, h3⟩
        have e : segmentCost ⟨1150, y⟩ ⟨1110, y⟩ = segmentCost ⟨770, y⟩ ⟨810, y⟩ := by
          rw [segmentCost_comm, segmentCost_row (by norm_num), segmentCost_row (by norm_num)]
          norm_num
        simp only [e]
        omega
      · refine ⟨z, _, .go (road_middle2 h h770 ht.left) ht, ?_, hz⟩
        have e : segmentCost ⟨1150, y⟩ ⟨960, y⟩ = segmentCost ⟨770, y⟩ ⟨960, y⟩ := by
          rw [segmentCost_comm, segmentCost_row (by norm_num), segmentCost_row (by norm_num)]
          norm_num
        simp only [e]
        omega
      · exact ⟨z, c, ht, by have := segmentCost_nonneg ⟨1150, y⟩ ⟨770, y⟩; simp only; omega, hz⟩
      · refine ⟨z, _, .go (star_road h hg hl ⟨rfl, rfl, .inl rfl⟩ ht.left h770) ht, ?_, hz⟩
        obtain ⟨⟨mx, my⟩, mo⟩ := m
        obtain ⟨-, hy, hx⟩ := hl
        simp only at hy hx
        subst hy
        have hx : mx ≤ 770 := by rcases hx with hx | ⟨hx, -⟩ <;> rw [hx] <;> norm_num
        have e : segmentCost ⟨770, my⟩ ⟨mx, my⟩ ≤ segmentCost ⟨1150, my⟩ ⟨mx, my⟩ := by
          rw [segmentCost_comm, segmentCost_row hx, segmentCost_comm, segmentCost_row (by linarith)]
          exact Rat.floor_monotone (by linarith)
        simp only
        omega
    · rintro y rfl
      have em := right2_roads h hr
      obtain ⟨z', c', h1, h2, h3⟩ := ih1 y em
      have hnm := hr.left
      have hs : (⟨⟨810, y⟩, some .left⟩ : RouteNodeData) ∈ PL := by
        rcases mem_places.mp hnm with ⟨ho, -⟩ | ⟨o, ho, he⟩
        · cases ho
        · cases ho
          obtain ⟨k, w, hk, hc⟩ := allEnds_cases h he
          simp only at hc
          obtain ⟨h6, -, -, h4⟩ := hc
          rcases three_idx hk with ⟨rfl, rfl⟩ | ⟨rfl, rfl⟩ | ⟨rfl, rfl⟩
          · norm_num at h6
          · norm_num at h6
          · norm_num at h4
            exact mem_places.mpr (.inr ⟨_, rfl, h4⟩)
      refine ⟨z', _, .go (road_left2 h hs h1.left).symm h1, ?_, h3⟩
      rw [em]
      have e : segmentCost ⟨1110, y⟩ ⟨1150, y⟩ = segmentCost ⟨810, y⟩ ⟨770, y⟩ := by
        rw [segmentCost_comm ⟨810, y⟩, segmentCost_row (by norm_num), segmentCost_row (by norm_num)]
        norm_num
      simp only [e]
      omega

end

end Seiren
