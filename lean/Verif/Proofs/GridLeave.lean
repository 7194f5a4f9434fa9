import Verif.Proofs.GridColumns
namespace Seiren.Grid
open Spec

/-! # Roads to the left and right from the middle of a column of tables

They lead to the streets next to the column, or past a table of the second column to the street beyond it. -/

section
variable {ns : List Nat} {cs : List (NodeRef × NodeRef)}

local notation "ES" => allEnds ns cs
local notation "PL" => places ns (allEnds ns cs)

/-! ## Rows -/

theorem Tab.earlier {c r m c' r' : Nat} (h : Tab ns c r m) (hc' : c' < 3) (hlt : 3 * r' + c' ≤ 3 * r + c) : ∃ m', Tab ns c' r' m' := by
  have := (List.getElem?_eq_some_iff.mp h.2).1
  exact ⟨_, hc', List.getElem?_eq_getElem (by omega)⟩

/-- In each row some table is as high as the row. -/
theorem tallest_tab {c r m : Nat} (h : Tab ns c r m) : ∃ c' m', Tab ns c' r m' ∧ m' = tallest ns r := by
  obtain ⟨m0, h0⟩ := h.earlier (c' := 0) (r' := r) (by omega) (by omega)
  have e0 : ns[3 * r]? = some m0 := h0.2
  unfold tallest
  rw [e0, Option.getD_some]
  cases e1 : ns[3 * r + 1]? with
  | none =>
    cases e2 : ns[3 * r + 2]? with
    | none => exact ⟨0, m0, h0, by simp⟩
    | some m2 =>
      rcases le_total m0 m2 with hle | hle
      · exact ⟨2, m2, ⟨by omega, e2⟩, by simp [hle]⟩
      · exact ⟨0, m0, h0, by simp [hle]⟩
  | some m1 =>
    cases e2 : ns[3 * r + 2]? with
    | none =>
      rcases le_total m0 m1 with hle | hle
      · exact ⟨1, m1, ⟨by omega, e1⟩, by simp [hle]⟩
      · exact ⟨0, m0, h0, by simp [hle]⟩
    | some m2 =>
      simp only [Option.getD_some]
      rcases le_total m0 m1 with hle | hle
      · rcases le_total m1 m2 with hle' | hle'
        · exact ⟨2, m2, ⟨by omega, e2⟩, by omega⟩
        · exact ⟨1, m1, ⟨by omega, e1⟩, by omega⟩
      · rcases le_total m0 m2 with hle' | hle'
        · exact ⟨2, m2, ⟨by omega, e2⟩, by omega⟩
        · exact ⟨0, m0, h0, by omega⟩

/-- If the height is that of the upper side of the frames of a row, the row has a table in the column. -/
def Good (ns : List Nat) (c : Nat) (y : Rat) : Prop :=
  ∀ k r w, Tab ns k r w → y = rowTop ns r - 40 → ∃ w', Tab ns c r w'

/-- The height is not that of the lowest crossings. -/
def Under (ns : List Nat) (y : Rat) : Prop := ∃ k r w, Tab ns k r w ∧ y < rowTop ns r + 35 * (w : Rat) + 40

/-- Where there is no crossing on the street next to a column, at the height of the frame of a table, the row has a longer table. -/
theorem longer {c k r w : Nat} (hk : Tab ns k r w) {y : Rat} (hy : y = rowTop ns r + 35 * (w : Rat) + 40) (hg : Good ns c y)
    (hun : Under ns y) (hnc : ∀ r' w', Tab ns c r' w' → y ≠ rowTop ns r' - 40) : ∃ k' w', Tab ns k' r w' ∧ w < w' := by
  by_contra hno
  push Not at hno
  obtain ⟨k', w', hk', he⟩ := tallest_tab hk
  have hle := hno k' w' hk'
  have hge := hk.le
  have hw : (w : Rat) = tallest ns r := by
    have : w = tallest ns r := by omega
    exact_mod_cast this
  have htop : y = rowTop ns (r + 1) - 40 := by
    simp only [rowTop]
    rw [hy, hw]
    ring
  obtain ⟨k2, r2, w2, hk2, hlt⟩ := hun
  rcases Nat.lt_trichotomy r2 r with h1 | h1 | h1
  · have := hk2.apart h1
    have h0 : (0 : Rat) ≤ w := by exact_mod_cast Nat.zero_le w
    linarith
  · rw [h1] at hk2 hlt
    have : (w2 : Rat) ≤ w := by exact_mod_cast hno k2 w2 hk2
    linarith
  · obtain ⟨w0, h0⟩ := hk2.earlier (c' := 0) (r' := r + 1) (by omega) (by omega)
    obtain ⟨w', hw'⟩ := hg 0 (r + 1) w0 h0 htop
    exact hnc (r + 1) w' hw' htop

/-! ## Roads to the right -/

theorem road_right {n m : RouteNodeData} (hr : RoadBetween ns PL n m) (hlt : n.location.x < m.location.x) :
    ∃ a b, (PL)[a]? = some n ∧ (PL)[b]? = some m ∧ (NeighbourIn ns PL .right a b ∨ NeighbourIn ns PL .left b a) := by
  obtain ⟨a, b, ha, hb, d, hn | hn⟩ := hr
  · obtain ⟨ht, -⟩ := neighbour_ahead hn ha hb
    refine ⟨a, b, ha, hb, ?_⟩
    cases d
    · have := ht.1; linarith
    · have := ht.1; linarith
    · have := ht.2; linarith
    · exact .inl hn
  · obtain ⟨ht, -⟩ := neighbour_ahead hn hb ha
    refine ⟨a, b, ha, hb, ?_⟩
    cases d
    · have := ht.1; linarith
    · have := ht.1; linarith
    · exact .inr hn
    · have := ht.2; linarith

theorem road_right_ahead {n m : RouteNodeData} (hr : RoadBetween ns PL n m) (hlt : n.location.x < m.location.x) :
    m.location.y = n.location.y ∧ Open .right n ∧ Open .left m := by
  obtain ⟨a, b, ha, hb, hd | hd⟩ := road_right hr hlt
  · obtain ⟨ht, h1, h2⟩ := neighbour_ahead hd ha hb
    exact ⟨ht.1, h1, h2⟩
  · obtain ⟨ht, h1, h2⟩ := neighbour_ahead hd hb ha
    exact ⟨ht.1.symm, h2, h1⟩

/-- A road that passes through a table. -/
theorem road_passes (h : Ok ns cs) {n m : RouteNodeData} (hr : RoadBetween ns PL n m) (hlt : n.location.x < m.location.x)
    {k r w : Nat} (hk : Tab ns k r w) (hp : PassesAt ns k r w n.location.x m.location.x n.location.y) :
    LStar ns cs n.location.y n ∧ (m.location.x = 1150 ∨ RStar ns cs n.location.y m) := by
  have hy := (road_right_ahead hr hlt).1
  obtain ⟨a, b, ha, hb, hd | hd⟩ := road_right hr hlt
  · obtain ⟨-, h1, h2⟩ := cross_right h hd ha hb hk hp
    exact ⟨h1, h2.imp (fun h => h.2.2) id⟩
  · rw [← hy] at hp
    obtain ⟨-, h1, h2⟩ := cross_left h hd hb ha hk hp
    rw [hy] at h1 h2
    exact ⟨h1, .inr h2⟩

/-- A road that passes through no table passes no crossing. -/
theorem no_skip {n m q : RouteNodeData} (hr : RoadBetween ns PL n m) (hlt : n.location.x < m.location.x)
    (hf : ∀ k r w, Tab ns k r w → ¬ PassesAt ns k r w n.location.x m.location.x n.location.y) (hq : q ∈ PL) (hqo : q.orientation = none)
    (hqy : q.location.y = n.location.y) (h1 : n.location.x < q.location.x) (h2 : q.location.x < m.location.x) : False := by
  have hy := (road_right_ahead hr hlt).1
  obtain ⟨a, b, ha, hb, hd | hd⟩ := road_right hr hlt
  · refine not_over_right hd ha hb hq (.inl hqo) hqy h1 h2 ?_
    rintro k r w hk ⟨p1, p2, p3, p4⟩
    exact hf k r w hk ⟨p1, p2.trans h2, p3, p4⟩
  · refine not_over_left hd hb ha hq (.inl hqo) (hqy.trans hy.symm) h2 h1 ?_
    rintro k r w hk ⟨p1, p2, p3, p4⟩
    rw [hqy] at p3 p4
    exact hf k r w hk ⟨h1.trans p1, p2, p3, p4⟩

/-- Every crossing on the first street has its counterpart on the other side of the first table. -/
theorem mirror0 (h : Ok ns cs) {y : Rat} (hp : (⟨⟨10, y⟩, none⟩ : RouteNodeData) ∈ PL) :
    (⟨⟨390, y⟩, none⟩ : RouteNodeData) ∈ PL := by
  have corner : ∀ {j : Point}, j ∈ corners ns → j.x = 10 → (⟨390, j.y⟩ : Point) ∈ corners ns := by
    intro j hj hjx
    obtain ⟨k, r, w, hk, hx, hy⟩ := mem_corners.mp hj
    rcases col3 hk.1 with rfl | rfl | rfl
    · exact mem_corners.mpr ⟨0, r, w, hk, .inr (by norm_num), hy⟩
    · rw [hjx] at hx; norm_num at hx
    · rw [hjx] at hx; norm_num at hx
  rcases place_cases h hp with ⟨-, k, r, w, hk, hx, hy⟩ | ⟨-, k, r, w, hk, h1, h2, hs, j, hj, hx, hsee⟩ |
      ⟨-, -, k, r, w, hk, hx, -⟩ | ⟨k, r, w, hk, hc⟩
  · exact corner_place (i := 1) (corner (j := ⟨10, y⟩) (mem_corners.mpr ⟨k, r, w, hk, hx, hy⟩) rfl) (by norm_num)
  · simp only at hx hsee h1 h2 hs
    rcases hsee with hsee | hsee
    · have hj' := corner hj hx.symm
      rcases Nat.eq_zero_or_pos k with rfl | hpos
      · refine street_place hs.2 (.inr rfl) (i := 1) (j := ⟨390, j.y⟩) hj' (by norm_num) (sees_right (c := 0) rfl (by norm_num))
      · refine street_place hs.1 (.inl rfl) (i := 1) (j := ⟨390, j.y⟩) hj' (by norm_num) ⟨?_, ?_⟩
        · have : (1 : Rat) ≤ k := by exact_mod_cast hpos
          simp only
          linarith
        · intro R hR hat hlt
          have := hsee.2 R hR hat hlt
          rw [← hx] at this
          simp only
          linarith
    · exfalso
      have := hsee.1
      simp only [← hx] at this
      have h0 : (0 : Rat) ≤ k := by exact_mod_cast Nat.zero_le k
      linarith
  · exfalso
    simp only at hx
    have h0 : (0 : Rat) ≤ k := by exact_mod_cast Nat.zero_le k
    linarith
  · exfalso
    rcases hc with ⟨h1, -⟩ | ⟨h1, -⟩ | ⟨h1, -⟩ | ⟨h1, -⟩ <;> cases h1

/-! ## Where roads lead to -/

/-- Left and right ends have crossings at their sides. -/
theorem left_street (h : Ok ns cs) {n : RouteNodeData} (hn : n ∈ PL) {c : Nat} (ho : n.orientation = some .left)
    (hx : n.location.x = 50 + 380 * (c : Rat)) : (⟨⟨10 + 380 * (c : Rat), n.location.y⟩, none⟩ : RouteNodeData) ∈ PL := by
  rcases mem_places.mp hn with ⟨ho', -⟩ | ⟨o, ho', he⟩
  · rw [ho] at ho'; cases ho'
  · rw [ho] at ho'
    cases ho'
    obtain ⟨c', r, m, hm, h1, h2, h3, h4⟩ := allEnds_cases h he
    obtain rfl := same_col (c := c) (le_refl _) (by norm_num) h1 (by rw [hx]) (by rw [hx]; linarith)
    have he' : (⟨50 + 380 * (c' : Rat), n.location.y⟩, .left) ∈ ES := by
      rw [← h1]
      exact he
    exact (base_places h (c := c') (.inl ⟨he', h4⟩)).1

theorem right_street (h : Ok ns cs) {n : RouteNodeData} (hn : n ∈ PL) {c : Nat} (ho : n.orientation = some .right)
    (hx : n.location.x = 350 + 380 * (c : Rat)) : (⟨⟨390 + 380 * (c : Rat), n.location.y⟩, none⟩ : RouteNodeData) ∈ PL := by
  rcases mem_places.mp hn with ⟨ho', -⟩ | ⟨o, ho', he⟩
  · rw [ho] at ho'; cases ho'
  · rw [ho] at ho'
    cases ho'
    obtain ⟨c', r, m, hm, h1, h2, h3, h4⟩ := allEnds_cases h he
    obtain rfl := same_col (c := c) (by norm_num) (le_refl _) h1 (by rw [hx]; linarith) (by rw [hx])
    have he' : (⟨350 + 380 * (c' : Rat), n.location.y⟩, .right) ∈ ES := by
      rw [← h1]
      exact he
    exact (base_places h (c := c') (.inl ⟨h4, he'⟩)).2

/-- A place in the middle of a column is not at the height of a table of it or its frame. -/
theorem outside (h : Ok ns cs) {n : RouteNodeData} (hn : n ∈ PL) (ho : n.orientation = none) {c : Nat}
    (hx : n.location.x = 200 + 380 * (c : Rat)) {r m : Nat} (hm : Tab ns c r m) (h1 : rowTop ns r - 39 ≤ n.location.y)
    (h2 : n.location.y ≤ rowTop ns r + 35 * (m : Rat) + 39) : False := by
  rcases col_cases h hn hx with ⟨-, hc, -⟩ | ⟨r', m', hm', ho', -⟩ | ⟨r', m', hm', ho', -⟩
  · refine hc ⟨_, hm.mem, ?_⟩
    simp only
    refine ⟨by linarith, by linarith, h1, h2⟩
  · rw [ho] at ho'; cases ho'
  · rw [ho] at ho'; cases ho'

/-- A table of the second column is at this height, or its frame. -/
def AtSecond (ns : List Nat) (y : Rat) : Prop := ∃ r w, Tab ns 1 r w ∧ rowTop ns r < y ∧ y < rowTop ns r + 35 * (w : Rat) + 40

theorem leave_right (h : Ok ns cs) {c : Nat} (hc : c < 3) {p o : RouteNodeData} (hx : p.location.x = 200 + 380 * (c : Rat))
    (hr : RoadBetween ns PL p o) (hlt : p.location.x < o.location.x) (hg : Good ns c p.location.y) (hun : Under ns p.location.y) :
    o = ⟨⟨390 + 380 * (c : Rat), p.location.y⟩, none⟩ ∨
      c = 0 ∧ (o = ⟨⟨770, p.location.y⟩, none⟩ ∨ o = ⟨⟨1150, p.location.y⟩, none⟩) ∧ AtSecond ns p.location.y := by
  have hp := hr.left
  have ho := hr.symm.left
  obtain ⟨hy, hop, hol⟩ := road_right_ahead hr hlt
  have hpn := middle_none h hp hx (.inr hop)
  have e1 : (390 + 380 * (c : Rat)) = 10 + 380 * ((c + 1 : Nat) : Rat) := by push_cast; ring
  by_cases hq : (⟨⟨390 + 380 * (c : Rat), p.location.y⟩, none⟩ : RouteNodeData) ∈ PL
  · left
    rcases lt_trichotomy o.location.x (390 + 380 * (c : Rat)) with h1 | h1 | h1
    · exfalso
      obtain ⟨i, hi, ⟨-, hx'⟩ | ⟨hi2, ⟨-, hx'⟩ | hx' | ⟨ho', hx'⟩⟩⟩ := place_x h ho
      · rcases Nat.lt_or_ge c i with h2 | h2
        · have : (c : Rat) + 1 ≤ i := by exact_mod_cast h2
          linarith
        · have : (i : Rat) ≤ c := by exact_mod_cast h2
          linarith
      · rcases Nat.lt_or_ge c i with h2 | h2
        · have : (c : Rat) + 1 ≤ i := by exact_mod_cast h2
          linarith
        · have : (i : Rat) ≤ c := by exact_mod_cast h2
          linarith
      · rcases Nat.lt_or_ge c i with h2 | h2
        · have : (c : Rat) + 1 ≤ i := by exact_mod_cast h2
          linarith
        · have : (i : Rat) ≤ c := by exact_mod_cast h2
          linarith
      · exact not_open hol ho' (by simp)
    · exact rnd_eq (street_none h ho (h1.trans e1)) h1 hy
    · exfalso
      by_cases hf : ∃ k r w, Tab ns k r w ∧ PassesAt ns k r w p.location.x o.location.x p.location.y
      · obtain ⟨k, r, w, hk, hpass⟩ := hf
        obtain ⟨⟨-, -, hl | ⟨hl, hl'⟩⟩, -⟩ := road_passes h hr hlt hk hpass
        · rw [hx] at hl
          rcases col3 hc with rfl | rfl | rfl <;> norm_num at hl
        · rw [hx] at hl
          rcases col3 hc with rfl | rfl | rfl <;> norm_num at hl
          norm_num at hq
          exact hl' hq
      · push Not at hf
        exact no_skip hr hlt hf hq rfl rfl (by rw [hx]; simp only; linarith) h1
  · -- no crossing on the next street
    obtain ⟨-, -, j, hj, hjy⟩ : p.orientation = none ∧ ¬ CloseToTable ns p.location ∧ ∃ j ∈ corners ns, p.location.y = j.y := by
      rcases col_cases h hp hx with h1 | ⟨r', m', hm', ho', -⟩ | ⟨r', m', hm', ho', -⟩
      · exact h1
      · rw [hpn] at ho'; cases ho'
      · rw [hpn] at ho'; cases ho'
    obtain ⟨k, r, w, hk, -, hjy'⟩ := mem_corners.mp hj
    rw [← hjy] at hjy'
    have place : ∀ k' r' w', Tab ns k' r' w' → (p.location.y = rowTop ns r' - 40 ∨ p.location.y = rowTop ns r' + 35 * (w' : Rat) + 40) →
        (⟨⟨10 + 380 * (k' : Rat), p.location.y⟩, none⟩ : RouteNodeData) ∈ PL ∧
          (⟨⟨390 + 380 * (k' : Rat), p.location.y⟩, none⟩ : RouteNodeData) ∈ PL := by
      intro k' r' w' hk' hy'
      exact base_places h (.inr ⟨mem_corners.mpr ⟨k', r', w', hk', .inl rfl, hy'⟩, mem_corners.mpr ⟨k', r', w', hk', .inr rfl, hy'⟩⟩)
    have hnc : ∀ r' w', Tab ns c r' w' → p.location.y ≠ rowTop ns r' - 40 := fun r' w' h1 h2 => hq (place c r' w' h1 (.inl h2)).2
    have hyb : p.location.y = rowTop ns r + 35 * (w : Rat) + 40 := by
      rcases hjy' with h1 | h1
      · obtain ⟨w', hw'⟩ := hg k r w hk h1
        exact absurd h1 (hnc r w' hw')
      · exact h1
    have hkc : k ≠ c := by rintro rfl; exact hq (place k r w hk hjy').2
    have hkc1 : k ≠ c + 1 := by
      rintro rfl
      refine hq ?_
      rw [e1]
      exact (place (c + 1) r w hk hjy').1
    obtain ⟨k', w', hk', hww⟩ := longer hk hyb hg hun hnc
    have hw' : (w : Rat) + 1 ≤ w' := by exact_mod_cast hww
    have hw0 : (0 : Rat) ≤ w := by exact_mod_cast Nat.zero_le w
    have hk'c : k' ≠ c := by
      rintro rfl
      exact outside h hp hpn hx hk' (by linarith) (by linarith)
    have hk'k : k' ≠ k := by
      rintro rfl
      have := hk.unique hk'
      omega
    obtain ⟨i, hi, hplace⟩ := place_x h ho
    have hkb := hk.1
    have hk'b := hk'.1
    rcases col3 hc with rfl | rfl | rfl
    · -- the first column
      have hk2 : k = 2 := by omega
      have hk'1 : k' = 1 := by omega
      subst hk2 hk'1
      right
      have hat : AtSecond ns p.location.y := ⟨r, w', hk', by linarith, by linarith⟩
      have h770 := (place 2 r w hk hjy').1
      norm_num at h770 hq hx
      have hox : o.location.x = 770 ∨ o.location.x = 1150 := by
        by_contra hno
        push Not at hno
        have hgt : 770 < o.location.x := by
          by_contra hle
          push Not at hle
          have hlt' := lt_of_le_of_ne hle hno.1
          rw [hx] at hlt
          have hi4 : i = 0 ∨ i = 1 ∨ i = 2 ∨ i = 3 := by omega
          rcases hplace with ⟨hon, hx'⟩ | ⟨-, ⟨hon, hx'⟩ | hx' | ⟨hon, hx'⟩⟩
          · rcases hi4 with rfl | rfl | rfl | rfl <;> norm_num at hx' <;> try linarith
            exact hq (by rw [← hy, ← hx', ← hon]; exact ho)
          · rcases hi4 with rfl | rfl | rfl | rfl <;> norm_num at hx' <;> try linarith
            have := left_street h ho (c := 1) hon (by rw [hx']; norm_num)
            norm_num at this
            exact hq (by rw [← hy]; exact this)
          · rcases hi4 with rfl | rfl | rfl | rfl <;> norm_num at hx' <;> try linarith
            have hx'' : o.location.x = 200 + 380 * ((1 : Nat) : Rat) := by rw [hx']; norm_num
            exact outside h ho (middle_none h ho hx'' (.inl hol)) hx'' hk' (by rw [hy]; linarith) (by rw [hy]; linarith)
          · exact not_open hol hon (by simp)
        by_cases hf : ∃ k r w, Tab ns k r w ∧ PassesAt ns k r w p.location.x o.location.x p.location.y
        · obtain ⟨k2, r2, w2, hk2, hpass⟩ := hf
          obtain ⟨-, h1 | ⟨-, -, h1 | ⟨h1, h2⟩⟩⟩ := road_passes h hr hlt hk2 hpass
          · exact hno.2 h1
          · exact hno.1 h1
          · exact h2 h770
        · push Not at hf
          exact no_skip hr hlt hf h770 rfl rfl (by rw [hx]; norm_num) hgt
      refine ⟨rfl, ?_, hat⟩
      rcases hox with hox | hox
      · exact .inl (rnd_eq (street_none h ho (i := 2) (by rw [hox]; norm_num)) hox hy)
      · exact .inr (rnd_eq (street_none h ho (i := 3) (by rw [hox]; norm_num)) hox hy)
    · -- the second column
      exfalso
      have hk0 : k = 0 := by omega
      have hk'2 : k' = 2 := by omega
      subst hk0 hk'2
      norm_num at hq hx
      by_cases hf : ∃ k r w, Tab ns k r w ∧ PassesAt ns k r w p.location.x o.location.x p.location.y
      · obtain ⟨k2, r2, w2, hk2, hpass⟩ := hf
        obtain ⟨⟨-, -, hl | ⟨hl, -⟩⟩, -⟩ := road_passes h hr hlt hk2 hpass <;> rw [hx] at hl <;> norm_num at hl
      · rw [hx] at hlt
        have hi4 : i = 0 ∨ i = 1 ∨ i = 2 ∨ i = 3 := by omega
        rcases hplace with ⟨hon, hx'⟩ | ⟨hi2, ⟨hon, hx'⟩ | hx' | ⟨hon, hx'⟩⟩
        · rcases hi4 with rfl | rfl | rfl | rfl <;> norm_num at hx' <;> try linarith
          · exact hq (by rw [← hy, ← hx', ← hon]; exact ho)
          · refine hq (mirror h ?_)
            rw [← hy, ← hx', ← hon]
            exact ho
        · rcases hi4 with rfl | rfl | rfl | rfl <;> norm_num at hx' <;> try linarith
          · have := left_street h ho (c := 2) hon (by rw [hx']; norm_num)
            norm_num at this
            exact hq (by rw [← hy]; exact this)
        · rcases hi4 with rfl | rfl | rfl | rfl <;> norm_num at hx' <;> try linarith
          · have hx'' : o.location.x = 200 + 380 * ((2 : Nat) : Rat) := by rw [hx']; norm_num
            exact outside h ho (middle_none h ho hx'' (.inl hol)) hx'' hk' (by rw [hy]; linarith) (by rw [hy]; linarith)
        · exact not_open hol hon (by simp)
    · -- the third column
      exfalso
      norm_num at hq hx
      rw [hx] at hlt
      have hi4 : i = 0 ∨ i = 1 ∨ i = 2 ∨ i = 3 := by omega
      rcases hplace with ⟨hon, hx'⟩ | ⟨hi2, ⟨hon, hx'⟩ | hx' | ⟨hon, hx'⟩⟩
      · rcases hi4 with rfl | rfl | rfl | rfl <;> norm_num at hx' <;> try linarith
        exact hq (by rw [← hy, ← hx', ← hon]; exact ho)
      · rcases hi4 with rfl | rfl | rfl | rfl <;> norm_num at hx' <;> linarith
      · rcases hi4 with rfl | rfl | rfl | rfl <;> norm_num at hx' <;> linarith
      · exact not_open hol hon (by simp)

theorem leave_left (h : Ok ns cs) {c : Nat} (hc : c < 3) {p o : RouteNodeData} (hx : p.location.x = 200 + 380 * (c : Rat))
    (hr : RoadBetween ns PL p o) (hlt : o.location.x < p.location.x) (hg : Good ns c p.location.y) (hun : Under ns p.location.y) :
    o = ⟨⟨10 + 380 * (c : Rat), p.location.y⟩, none⟩ ∨
      c = 2 ∧ o = ⟨⟨390, p.location.y⟩, none⟩ ∧ AtSecond ns p.location.y := by
  have hp := hr.left
  have hr' := hr.symm
  have ho := hr'.left
  obtain ⟨hy, hor, hop⟩ := road_right_ahead hr' hlt
  have hpn := middle_none h hp hx (.inl hop)
  by_cases hq : (⟨⟨10 + 380 * (c : Rat), p.location.y⟩, none⟩ : RouteNodeData) ∈ PL
  · left
    rcases lt_trichotomy o.location.x (10 + 380 * (c : Rat)) with h1 | h1 | h1
    · exfalso
      by_cases hf : ∃ k r w, Tab ns k r w ∧ PassesAt ns k r w o.location.x p.location.x o.location.y
      · obtain ⟨k, r, w, hk, hpass⟩ := hf
        obtain ⟨-, hl | ⟨-, -, hl | ⟨hl, hl'⟩⟩⟩ := road_passes h hr' hlt hk hpass
        · rw [hx] at hl
          rcases col3 hc with rfl | rfl | rfl <;> norm_num at hl
        · rw [hx] at hl
          rcases col3 hc with rfl | rfl | rfl <;> norm_num at hl
        · rw [hx] at hl
          rcases col3 hc with rfl | rfl | rfl <;> norm_num at hl
          norm_num at hq
          rw [hy] at hq
          exact hl' hq
      · push Not at hf
        exact no_skip hr' hlt hf hq rfl hy h1 (by rw [hx]; simp only; linarith)
    · exact rnd_eq (street_none h ho h1) h1 hy.symm
    · exfalso
      obtain ⟨i, hi, ⟨-, hx'⟩ | ⟨hi2, ⟨ho', hx'⟩ | hx' | ⟨-, hx'⟩⟩⟩ := place_x h ho
      · rcases Nat.lt_or_ge c i with h2 | h2
        · have : (c : Rat) + 1 ≤ i := by exact_mod_cast h2
          linarith
        · have : (i : Rat) ≤ c := by exact_mod_cast h2
          linarith
      · exact not_open hor ho' (by simp)
      · rcases Nat.lt_or_ge i c with h2 | h2
        · have : (i : Rat) + 1 ≤ c := by exact_mod_cast h2
          linarith
        · have : (c : Rat) ≤ i := by exact_mod_cast h2
          linarith
      · rcases Nat.lt_or_ge i c with h2 | h2
        · have : (i : Rat) + 1 ≤ c := by exact_mod_cast h2
          linarith
        · have : (c : Rat) ≤ i := by exact_mod_cast h2
          linarith
  · -- no crossing on the street before it
    obtain ⟨-, -, j, hj, hjy⟩ : p.orientation = none ∧ ¬ CloseToTable ns p.location ∧ ∃ j ∈ corners ns, p.location.y = j.y := by
      rcases col_cases h hp hx with h1 | ⟨r', m', hm', ho', -⟩ | ⟨r', m', hm', ho', -⟩
      · exact h1
      · rw [hpn] at ho'; cases ho'
      · rw [hpn] at ho'; cases ho'
    obtain ⟨k, r, w, hk, -, hjy'⟩ := mem_corners.mp hj
    rw [← hjy] at hjy'
    have place : ∀ k' r' w', Tab ns k' r' w' → (p.location.y = rowTop ns r' - 40 ∨ p.location.y = rowTop ns r' + 35 * (w' : Rat) + 40) →
        (⟨⟨10 + 380 * (k' : Rat), p.location.y⟩, none⟩ : RouteNodeData) ∈ PL ∧
          (⟨⟨390 + 380 * (k' : Rat), p.location.y⟩, none⟩ : RouteNodeData) ∈ PL := by
      intro k' r' w' hk' hy'
      exact base_places h (.inr ⟨mem_corners.mpr ⟨k', r', w', hk', .inl rfl, hy'⟩, mem_corners.mpr ⟨k', r', w', hk', .inr rfl, hy'⟩⟩)
    have hnc : ∀ r' w', Tab ns c r' w' → p.location.y ≠ rowTop ns r' - 40 := fun r' w' h1 h2 => hq (place c r' w' h1 (.inl h2)).1
    have hyb : p.location.y = rowTop ns r + 35 * (w : Rat) + 40 := by
      rcases hjy' with h1 | h1
      · obtain ⟨w', hw'⟩ := hg k r w hk h1
        exact absurd h1 (hnc r w' hw')
      · exact h1
    have hkc : k ≠ c := by rintro rfl; exact hq (place k r w hk hjy').1
    have hkc1 : k + 1 ≠ c := by
      rintro rfl
      refine hq ?_
      have e1 : (10 + 380 * ((k + 1 : Nat) : Rat)) = 390 + 380 * (k : Rat) := by push_cast; ring
      rw [e1]
      exact (place k r w hk hjy').2
    obtain ⟨k', w', hk', hww⟩ := longer hk hyb hg hun hnc
    have hw' : (w : Rat) + 1 ≤ w' := by exact_mod_cast hww
    have hw0 : (0 : Rat) ≤ w := by exact_mod_cast Nat.zero_le w
    have hk'c : k' ≠ c := by
      rintro rfl
      exact outside h hp hpn hx hk' (by linarith) (by linarith)
    have hk'k : k' ≠ k := by
      rintro rfl
      have := hk.unique hk'
      omega
    obtain ⟨i, hi, hplace⟩ := place_x h ho
    have hkb := hk.1
    have hk'b := hk'.1
    have hi4 : i = 0 ∨ i = 1 ∨ i = 2 ∨ i = 3 := by omega
    rcases col3 hc with rfl | rfl | rfl
    · -- the first column
      exfalso
      norm_num at hq hx
      rw [hx] at hlt
      rcases hplace with ⟨hon, hx'⟩ | ⟨hi2, ⟨hon, hx'⟩ | hx' | ⟨hon, hx'⟩⟩
      · rcases hi4 with rfl | rfl | rfl | rfl <;> norm_num at hx' <;> try linarith
        exact hq (by rw [hy, ← hx', ← hon]; exact ho)
      · exact not_open hor hon (by simp)
      · rcases hi4 with rfl | rfl | rfl | rfl <;> norm_num at hx' <;> linarith
      · rcases hi4 with rfl | rfl | rfl | rfl <;> norm_num at hx' <;> linarith
    · -- the second column
      exfalso
      have hk0 : k = 2 := by omega
      have hk'2 : k' = 0 := by omega
      subst hk0 hk'2
      norm_num at hq hx
      rw [hx] at hlt
      rcases hplace with ⟨hon, hx'⟩ | ⟨hi2, ⟨hon, hx'⟩ | hx' | ⟨hon, hx'⟩⟩
      · rcases hi4 with rfl | rfl | rfl | rfl <;> norm_num at hx' <;> try linarith
        · refine hq (mirror0 h ?_)
          rw [hy, ← hx', ← hon]
          exact ho
        · exact hq (by rw [hy, ← hx', ← hon]; exact ho)
      · exact not_open hor hon (by simp)
      · rcases hi4 with rfl | rfl | rfl | rfl <;> norm_num at hx' <;> try linarith
        have hx'' : o.location.x = 200 + 380 * ((0 : Nat) : Rat) := by rw [hx']; norm_num
        exact outside h ho (middle_none h ho hx'' (.inr hor)) hx'' hk' (by rw [← hy]; linarith) (by rw [← hy]; linarith)
      · rcases hi4 with rfl | rfl | rfl | rfl <;> norm_num at hx' <;> try linarith
        have := right_street h ho (c := 0) hon (by rw [hx']; norm_num)
        norm_num at this
        exact hq (by rw [hy]; exact this)
    · -- the third column
      have hk0 : k = 0 := by omega
      have hk'2 : k' = 1 := by omega
      subst hk0 hk'2
      right
      have hat : AtSecond ns p.location.y := ⟨r, w', hk', by linarith, by linarith⟩
      have h390 := (place 0 r w hk hjy').2
      norm_num at h390 hq hx
      have hox : o.location.x = 390 := by
        by_contra hno
        have hgt : o.location.x < 390 := by
          by_contra hle
          push Not at hle
          have hlt' := lt_of_le_of_ne hle (Ne.symm hno)
          rw [hx] at hlt
          rcases hplace with ⟨hon, hx'⟩ | ⟨-, ⟨hon, hx'⟩ | hx' | ⟨hon, hx'⟩⟩
          · rcases hi4 with rfl | rfl | rfl | rfl <;> norm_num at hx' <;> try linarith
            exact hq (by rw [hy, ← hx', ← hon]; exact ho)
          · exact not_open hor hon (by simp)
          · rcases hi4 with rfl | rfl | rfl | rfl <;> norm_num at hx' <;> try linarith
            have hx'' : o.location.x = 200 + 380 * ((1 : Nat) : Rat) := by rw [hx']; norm_num
            exact outside h ho (middle_none h ho hx'' (.inr hor)) hx'' hk' (by rw [← hy]; linarith) (by rw [← hy]; linarith)
          · rcases hi4 with rfl | rfl | rfl | rfl <;> norm_num at hx' <;> try linarith
            have := right_street h ho (c := 1) hon (by rw [hx']; norm_num)
            norm_num at this
            exact hq (by rw [hy]; exact this)
        by_cases hf : ∃ k r w, Tab ns k r w ∧ PassesAt ns k r w o.location.x p.location.x o.location.y
        · obtain ⟨k2, r2, w2, hk2, hpass⟩ := hf
          obtain ⟨⟨-, -, h1 | ⟨h1, h2⟩⟩, -⟩ := road_passes h hr' hlt hk2 hpass
          · exact hno h1
          · rw [← hy] at h2; exact h2 h390
        · push Not at hf
          exact no_skip hr' hlt hf h390 rfl hy hgt (by rw [hx]; norm_num)
      exact ⟨rfl, rnd_eq (street_none h ho (i := 1) (by rw [hox]; norm_num)) hox hy.symm, hat⟩

end

end Seiren.Grid
