import Verif.Proofs.GridLast
import Verif.Proofs.GridLeave
namespace Seiren.Grid
open Spec

/-! # Ways around tables

Streets, and the frames of tables, can be followed from crossing to crossing. -/

section
variable {ns : List Nat} {cs : List (NodeRef × NodeRef)}

local notation "ES" => allEnds ns cs
local notation "PL" => places ns (allEnds ns cs)

/-! ## To the right -/

theorem open_left (h : Ok ns cs) {n : RouteNodeData} (hn : n ∈ PL) (ho : Open .left n) :
    n.orientation = none ∨ n.orientation = some .left ∧ ∃ c r m, Tab ns c r m ∧ n.location.x = 50 + 380 * (c : Rat) ∧
      rowTop ns r < n.location.y ∧ n.location.y < rowTop ns r + 35 * (m : Rat) := by
  rcases ho with ho | ho
  · exact .inl ho
  · right
    rcases mem_places.mp hn with ⟨ho', -⟩ | ⟨o, ho', he⟩
    · rw [ho] at ho'; cases ho'
    · rw [ho] at ho'
      cases ho'
      obtain ⟨c, r, m, hm, h1, h2, h3, -⟩ := allEnds_cases h he
      exact ⟨ho, c, r, m, hm, h1, h2, h3⟩

theorem row_unique (h : Ok ns cs) {n m : RouteNodeData} (hn : n ∈ PL) (hm : m ∈ PL) (ho : Open .left n) (ho' : Open .left m)
    (hx : n.location.x = m.location.x) (hy : n.location.y = m.location.y) : n = m := by
  suffices n.orientation = m.orientation by
    have hl := point_eq hx hy
    obtain ⟨l, o⟩ := n
    obtain ⟨l', o'⟩ := m
    simp only at hl this
    rw [hl, this]
  have key : ∀ {n m : RouteNodeData}, n ∈ PL → n.location.x = m.location.x → n.location.y = m.location.y → n.orientation = none →
      ∀ {c r w : Nat}, Tab ns c r w → m.location.x = 50 + 380 * (c : Rat) → rowTop ns r < m.location.y →
      m.location.y < rowTop ns r + 35 * (w : Rat) → False := by
    intro n m hn hx hy ho c r w hw h1 h2 h3
    obtain ⟨h4, -⟩ := inside_place h hn hw (by rw [hy]; exact h2) (by rw [hy]; exact h3) (by rw [hx, h1]) (by rw [hx, h1]; linarith)
    rcases h4 with ⟨h4, -⟩ | ⟨h4, -⟩ <;> rw [ho] at h4 <;> cases h4
  rcases open_left h hn ho with h1 | ⟨h1, c, r, w, hw, h2, h3, h4⟩ <;>
    rcases open_left h hm ho' with h1' | ⟨h1', c', r', w', hw', h2', h3', h4'⟩
  · rw [h1, h1']
  · exact (key hn hx hy h1 hw' h2' h3' h4').elim
  · exact (key hm hx.symm hy.symm h1' hw h2 h3 h4).elim
  · rw [h1, h1']

/-- Places at the same height without a table between them are joined. -/
theorem row_trip (h : Ok ns cs) {z : RouteNodeData} (hz : z ∈ PL) (hzo : Open .left z) : ∀ (N : Nat) (a : RouteNodeData), a ∈ PL →
    Open .right a → z.location.y = a.location.y → a.location.x < z.location.x →
    (∀ k r w, Tab ns k r w → ¬ PassesAt ns k r w a.location.x z.location.x a.location.y) →
    ((PL).filter fun p => a.location.x < p.location.x).length ≤ N → ∃ k, Trip ns PL a z k ∧ (k : Rat) ≤ z.location.x - a.location.x := by
  intro N
  induction N with
  | zero =>
    intro a ha hao hy hlt hf hN
    have : z ∈ (PL).filter fun p => a.location.x < p.location.x := List.mem_filter.mpr ⟨hz, by simp [hlt]⟩
    rw [List.eq_nil_of_length_eq_zero (Nat.le_zero.mp hN)] at this
    cases this
  | succ N ih =>
    intro a ha hao hy hlt hf hN
    obtain ⟨i, hi⟩ := List.getElem?_of_mem ha
    have hah : Ahead .right a z := ⟨⟨hy, hlt⟩, hao, hzo⟩
    obtain ⟨j, b, hj, hnb⟩ := neighbour_exists (ns := ns) hi hz hah
    have hbm := List.mem_of_getElem? hj
    have hroad : RoadBetween ns PL a b := ⟨i, j, hi, hj, .right, .inl hnb⟩
    obtain ⟨⟨hby, hbx⟩, -, hbo⟩ := neighbour_ahead hnb hi hj
    have hle := neighbour_le hnb hi hj hz hah (free_right hy hlt hf)
    simp only [distance, hby, hy, sub_self, abs_zero, add_zero] at hle
    rw [abs_of_neg (by linarith), abs_of_neg (by linarith)] at hle
    have hcost := cost_le a.location b.location
    rw [hby, sub_self, abs_zero, abs_of_pos (by linarith), add_zero] at hcost
    rcases eq_or_lt_of_le (by linarith : b.location.x ≤ z.location.x) with heq | hlt'
    · obtain rfl := row_unique h hbm hz hbo hzo heq (hby.trans hy.symm)
      exact ⟨_, Trip.one hroad, hcost⟩
    · have hbn : Open .right b := by
        rcases open_left h hbm hbo with h1 | ⟨-, c, r, w, hw, h2, h3, h4⟩
        · exact .inl h1
        · exfalso
          refine hf c r w hw ⟨by linarith, by linarith, ?_, ?_⟩
          · rw [← hby]; exact h3
          · rw [← hby]; exact h4
      obtain ⟨k, hk, hkl⟩ := ih b hbm hbn (hy.trans hby.symm) hlt' (by
        rintro k r w hk ⟨p1, p2, p3, p4⟩
        rw [hby] at p3 p4
        exact hf k r w hk ⟨hbx.trans p1, p2, p3, p4⟩) (by
        have hsub : ((PL).filter fun p => b.location.x < p.location.x).length < ((PL).filter fun p => a.location.x < p.location.x).length := by
          have e : (PL).filter (fun p => b.location.x < p.location.x) =
              ((PL).filter fun p => a.location.x < p.location.x).filter fun p => decide (b.location.x < p.location.x) := by
            rw [List.filter_filter]
            apply List.filter_congr
            intro p _
            by_cases h1 : b.location.x < p.location.x
            · have h2 : a.location.x < p.location.x := lt_trans hbx h1
              simp [h1, h2]
            · simp [h1]
          rw [e]
          have hmf : b ∈ (PL).filter fun p => a.location.x < p.location.x := List.mem_filter.mpr ⟨hbm, by simp [hbx]⟩
          exact List.length_filter_lt_length_iff_exists.mpr ⟨_, hmf, by simp⟩
        omega)
      refine ⟨_, .go hroad hk, ?_⟩
      push_cast
      linarith

/-! ## Streets -/

/-- The crossing on a street at a height. -/
abbrev street (i : Nat) (y : Rat) : RouteNodeData := ⟨⟨10 + 380 * (i : Rat), y⟩, none⟩

theorem along (h : Ok ns cs) {i : Nat} {y y' : Rat} (hn : street i y ∈ PL) (hz : street i y' ∈ PL) :
    ∃ k, Trip ns PL (street i y) (street i y') k ∧ (k : Rat) ≤ |y' - y| := by
  obtain ⟨k, hk, hkl⟩ := street_trip h rfl hn hz
  refine ⟨k, hk, ?_⟩
  have := cost_le ⟨10 + 380 * (i : Rat), y⟩ ⟨10 + 380 * (i : Rat), y'⟩
  simp only [sub_self, abs_zero, zero_add] at this
  have e : (k : Rat) ≤ segmentCost ⟨10 + 380 * (i : Rat), y⟩ ⟨10 + 380 * (i : Rat), y'⟩ := by exact_mod_cast hkl
  linarith

/-- A table and the street before or after it. -/
theorem nextStreet {c i k : Nat} (h1 : 10 + 380 * (c : Rat) < 350 + 380 * (k : Rat)) (h2 : 50 + 380 * (k : Rat) < 10 + 380 * (i : Rat)) :
    c ≤ k ∧ k < i := by
  constructor
  · by_contra hlt
    push Not at hlt
    have : (k : Rat) + 1 ≤ c := by exact_mod_cast hlt
    linarith
  · by_contra hge
    push Not at hge
    have : (i : Rat) ≤ k := by exact_mod_cast hge
    linarith

/-- The upper or lower side of the frame of a table. -/
def FrameSide (ns : List Nat) (c : Nat) (y : Rat) : Prop :=
  ∃ r w, Tab ns c r w ∧ (y = rowTop ns r - 40 ∨ y = rowTop ns r + 35 * (w : Rat) + 40)

theorem frame_places (h : Ok ns cs) {c : Nat} {y : Rat} (hf : FrameSide ns c y) : street c y ∈ PL ∧ street (c + 1) y ∈ PL := by
  obtain ⟨r, w, hk, hy⟩ := hf
  have := base_places h (c := c) (y := y)
    (.inr ⟨mem_corners.mpr ⟨c, r, w, hk, .inl rfl, hy⟩, mem_corners.mpr ⟨c, r, w, hk, .inr rfl, hy⟩⟩)
  have e1 : (390 + 380 * (c : Rat)) = 10 + 380 * ((c + 1 : Nat) : Rat) := by push_cast; ring
  rw [e1] at this
  exact this

theorem frame_trip (h : Ok ns cs) {c : Nat} {y : Rat} (hf : FrameSide ns c y) :
    ∃ k, Trip ns PL (street c y) (street (c + 1) y) k ∧ (k : Rat) ≤ 380 := by
  obtain ⟨h1, h2⟩ := frame_places (cs := cs) h hf
  obtain ⟨k, hk, hkl⟩ := row_trip h h2 (.inl rfl) _ _ h1 (.inl rfl) rfl (by simp only; push_cast; linarith) (by
    rintro k r' w' hk' ⟨p1, p2, p3, p4⟩
    obtain ⟨a1, a2⟩ := nextStreet p1 p2
    have : k = c := by omega
    subst this
    obtain ⟨r, w, hw, hy⟩ := hf
    simp only at p3 p4
    have o1 := h.one hw
    have o2 := h.one hk'
    rcases Nat.lt_trichotomy r r' with hlt | rfl | hlt
    · have := hw.apart hlt
      rcases hy with hy | hy <;> linarith
    · obtain rfl := hw.unique hk'
      rcases hy with hy | hy <;> linarith
    · have := hk'.apart hlt
      rcases hy with hy | hy <;> linarith) (le_refl _)
  refine ⟨k, hk, hkl.trans (le_of_eq ?_)⟩
  simp only
  push_cast
  ring

/-! ## Ends at the left and right -/

theorem left_trip (h : Ok ns cs) {c : Nat} {y : Rat} (hn : (⟨⟨50 + 380 * (c : Rat), y⟩, some .left⟩ : RouteNodeData) ∈ PL) :
    street c y ∈ PL ∧ ∃ k, Trip ns PL (street c y) ⟨⟨50 + 380 * (c : Rat), y⟩, some .left⟩ k ∧ (k : Rat) ≤ 40 := by
  have h1 := left_street h hn rfl rfl
  refine ⟨h1, ?_⟩
  obtain ⟨k, hk, hkl⟩ := row_trip h hn (.inr rfl) _ _ h1 (.inl rfl) rfl (by simp only; linarith) (by
    rintro k r' w' hk' ⟨p1, p2, -, -⟩
    simp only at p1 p2
    rcases Nat.lt_or_ge k c with hlt | hge
    · have : (k : Rat) + 1 ≤ c := by exact_mod_cast hlt
      linarith
    · have : (c : Rat) ≤ k := by exact_mod_cast hge
      linarith) (le_refl _)
  refine ⟨k, hk, hkl.trans (le_of_eq ?_)⟩
  simp only
  ring

theorem right_trip (h : Ok ns cs) {c : Nat} {y : Rat} (hn : (⟨⟨350 + 380 * (c : Rat), y⟩, some .right⟩ : RouteNodeData) ∈ PL) :
    street (c + 1) y ∈ PL ∧ ∃ k, Trip ns PL (street (c + 1) y) ⟨⟨350 + 380 * (c : Rat), y⟩, some .right⟩ k ∧ (k : Rat) ≤ 40 := by
  have h1 := right_street h hn rfl rfl
  have e1 : (390 + 380 * (c : Rat)) = 10 + 380 * ((c + 1 : Nat) : Rat) := by push_cast; ring
  simp only at h1
  rw [e1] at h1
  refine ⟨h1, ?_⟩
  obtain ⟨k, hk, hkl⟩ := row_trip h h1 (.inl rfl) _ _ hn (.inr rfl) rfl (by simp only; push_cast; linarith) (by
    rintro k r' w' hk' ⟨p1, p2, -, -⟩
    simp only at p1 p2
    push_cast at p2
    rcases Nat.lt_or_ge c k with hlt | hge
    · have : (c : Rat) + 1 ≤ k := by exact_mod_cast hlt
      linarith
    · have : (k : Rat) ≤ c := by exact_mod_cast hge
      linarith) (le_refl _)
  refine ⟨k, hk.symm, hkl.trans (le_of_eq ?_)⟩
  simp only
  push_cast
  ring

/-! ## From a street to an end -/

/-- From the street, an end of `e` can be reached at cost `b`. -/
def Reach (ns : List Nat) (cs : List (NodeRef × NodeRef)) (e : NodeRef) (i : Nat) (y b : Rat) : Prop :=
  ∃ z k, Trip ns (places ns (allEnds ns cs)) (street i y) z k ∧ (∃ o, (z.location, o) ∈ endsOf ns e) ∧ (k : Rat) ≤ b

theorem Reach.along (h : Ok ns cs) {e : NodeRef} {i : Nat} {y y' b : Rat} (hr : Reach ns cs e i y b) (hy : street i y' ∈ PL) :
    Reach ns cs e i y' (|y - y'| + b) := by
  obtain ⟨z, k, hk, hz, hb⟩ := hr
  obtain ⟨k', hk', hb'⟩ := Grid.along h hy hk.left
  exact ⟨z, _, hk'.append hk, hz, by push_cast; linarith⟩

theorem Reach.mono {e : NodeRef} {i : Nat} {y b b' : Rat} (hr : Reach ns cs e i y b) (hb : b ≤ b') : Reach ns cs e i y b' := by
  obtain ⟨z, k, hk, hz, hb1⟩ := hr
  exact ⟨z, k, hk, hz, hb1.trans hb⟩

/-- Around a table, from the street after it. -/
theorem Reach.frame_right (h : Ok ns cs) {e : NodeRef} {c : Nat} {y b : Rat} (hr : Reach ns cs e c y b) (hf : FrameSide ns c y) :
    Reach ns cs e (c + 1) y (380 + b) := by
  obtain ⟨z, k, hk, hz, hb⟩ := hr
  obtain ⟨k', hk', hb'⟩ := frame_trip (cs := cs) h hf
  exact ⟨z, _, hk'.symm.append hk, hz, by push_cast; linarith⟩

theorem Reach.frame_left (h : Ok ns cs) {e : NodeRef} {c : Nat} {y b : Rat} (hr : Reach ns cs e (c + 1) y b) (hf : FrameSide ns c y) :
    Reach ns cs e c y (380 + b) := by
  obtain ⟨z, k, hk, hz, hb⟩ := hr
  obtain ⟨k', hk', hb'⟩ := frame_trip (cs := cs) h hf
  exact ⟨z, _, hk'.append hk, hz, by push_cast; linarith⟩

/-- The two streets next to a table. -/
theorem Reach.other (h : Ok ns cs) {e : NodeRef} {c i j : Nat} {y b : Rat} (hr : Reach ns cs e i y b) (hf : FrameSide ns c y)
    (hi : i = c ∨ i = c + 1) (hj : j = c ∨ j = c + 1) : Reach ns cs e j y (380 + b) := by
  rcases hi with rfl | rfl <;> rcases hj with rfl | rfl
  · exact hr.mono (by linarith)
  · exact hr.frame_right h hf
  · exact hr.frame_left h hf
  · exact hr.mono (by linarith)

/-- Between the streets at both sides of the second column of tables. -/
theorem around_second (h : Ok ns cs) {r w : Nat} {c : Nat} (hT : Tab ns c r w) {y : Rat} (hat : AtSecond ns y) :
    ∃ y', FrameSide ns 1 y' ∧ |y' - (rowTop ns r - 40)| + |y - y'| = |y - (rowTop ns r - 40)| := by
  obtain ⟨R, w2, hw2, h1, h2⟩ := hat
  have o1 := h.one hw2
  have o2 := h.one hT
  have mono : R < r → rowTop ns R + 35 * (w2 : Rat) + 80 ≤ rowTop ns r := fun hlt => hw2.apart hlt
  have mono' : r ≤ R → rowTop ns r ≤ rowTop ns R := by
    intro hle
    rcases Nat.eq_or_lt_of_le hle with rfl | hlt
    · exact le_refl _
    · have := hT.apart hlt
      linarith
  rcases Nat.lt_or_ge R r with hlt | hge
  · have := mono hlt
    refine ⟨rowTop ns R + 35 * (w2 : Rat) + 40, ⟨R, w2, hw2, .inr rfl⟩, ?_⟩
    rw [abs_of_nonpos (by linarith), abs_of_nonpos (by linarith), abs_of_nonpos (by linarith)]
    ring
  · have := mono' hge
    refine ⟨rowTop ns R - 40, ⟨R, w2, hw2, .inl rfl⟩, ?_⟩
    rw [abs_of_nonneg (by linarith), abs_of_nonneg (by linarith), abs_of_nonneg (by linarith)]
    ring

theorem level_cost (p : Point) (x : Rat) (d : Int) (hd : |x - p.x| = d) : segmentCost p ⟨x, p.y⟩ = d := by
  unfold segmentCost
  rw [sub_self, abs_zero, add_zero, hd, Rat.floor_intCast]

/-- A route that leaves the middle of a column of tables can be replaced by one from the corner of a table of the column. -/
theorem reach_crossing (h : Ok ns cs) {e : NodeRef} (hv : ValidRef ns e) (hsub : ∀ x ∈ endsOf ns e, x ∈ ES) {c r w : Nat} (hT : Tab ns c r w)
    {p o z : RouteNodeData} {k : Int} (hx : p.location.x = 200 + 380 * (c : Rat)) (hr : RoadBetween ns PL p o)
    (hne : o.location.x ≠ p.location.x) (ht : Trip ns PL o z k) (hz : ∃ o, (z.location, o) ∈ endsOf ns e)
    (hg : Good ns c p.location.y) (hun : Under ns p.location.y) : ∃ i, (i = c ∨ i = c + 1) ∧
      Reach ns cs e i (rowTop ns r - 40) (|p.location.y - (rowTop ns r - 40)| + (segmentCost p.location o.location + k : Int) - 190) := by
  have hc := hT.1
  have hfr : FrameSide ns c (rowTop ns r - 40) := ⟨r, w, hT, .inl rfl⟩
  obtain ⟨f1, f2⟩ := frame_places (cs := cs) h hfr
  rcases lt_or_gt_of_ne hne with hlt | hlt
  · rcases leave_left h hc hx hr hlt hg hun with rfl | ⟨rfl, rfl, hat⟩
    · refine ⟨c, .inl rfl, ?_⟩
      have hs : segmentCost p.location ⟨10 + 380 * (c : Rat), p.location.y⟩ = 190 := by
        apply level_cost
        rw [hx]
        rw [abs_of_neg (by linarith)]
        push_cast
        ring
      have := (show Reach ns cs e c p.location.y k from ⟨z, k, ht, hz, le_refl _⟩).along h f1
      refine this.mono ?_
      simp only [hs]
      push_cast
      linarith
    · refine ⟨2, .inl rfl, ?_⟩
      have hs : segmentCost p.location ⟨390, p.location.y⟩ = 570 := by
        apply level_cost
        rw [hx]
        norm_num
      obtain ⟨y', hy', hsum⟩ := around_second h hT hat
      have e1 : (⟨⟨390, p.location.y⟩, none⟩ : RouteNodeData) = street 1 p.location.y := by
        simp only [street, RouteNodeData.mk.injEq, Point.mk.injEq, and_true]
        norm_num
      rw [e1] at ht
      obtain ⟨g1, g2⟩ := frame_places (cs := cs) h hy'
      have := (((show Reach ns cs e 1 p.location.y k from ⟨z, k, ht, hz, le_refl _⟩).along h g1).frame_right h hy').along h f1
      refine this.mono ?_
      simp only [hs]
      push_cast
      linarith
  · rcases leave_right h hc hx hr hlt hg hun with rfl | ⟨rfl, rfl | rfl, hat⟩
    · refine ⟨c + 1, .inr rfl, ?_⟩
      have hs : segmentCost p.location ⟨390 + 380 * (c : Rat), p.location.y⟩ = 190 := by
        apply level_cost
        rw [hx]
        rw [abs_of_pos (by linarith)]
        push_cast
        ring
      have e1 : (⟨⟨390 + 380 * (c : Rat), p.location.y⟩, none⟩ : RouteNodeData) = street (c + 1) p.location.y := by
        simp only [street, RouteNodeData.mk.injEq, Point.mk.injEq, and_true]
        push_cast
        ring
      rw [e1] at ht
      have := (show Reach ns cs e (c + 1) p.location.y k from ⟨z, k, ht, hz, le_refl _⟩).along h f2
      refine this.mono ?_
      simp only [hs]
      push_cast
      linarith
    · refine ⟨1, .inr rfl, ?_⟩
      have hs : segmentCost p.location ⟨770, p.location.y⟩ = 570 := by
        apply level_cost
        rw [hx]
        norm_num
      obtain ⟨y', hy', hsum⟩ := around_second h hT hat
      have e1 : (⟨⟨770, p.location.y⟩, none⟩ : RouteNodeData) = street 2 p.location.y := by
        simp only [street, RouteNodeData.mk.injEq, Point.mk.injEq, and_true]
        norm_num
      rw [e1] at ht
      obtain ⟨g1, g2⟩ := frame_places (cs := cs) h hy'
      have := (((show Reach ns cs e 2 p.location.y k from ⟨z, k, ht, hz, le_refl _⟩).along h g2).frame_left h hy').along h f2
      refine this.mono ?_
      simp only [hs]
      push_cast
      linarith
    · refine ⟨1, .inr rfl, ?_⟩
      have hs : segmentCost p.location ⟨1150, p.location.y⟩ = 950 := by
        apply level_cost
        rw [hx]
        norm_num
      obtain ⟨y', hy', hsum⟩ := around_second h hT hat
      obtain ⟨z', k', ht', hle, hz'⟩ := (mirror_trip h hv hsub ht hz).1 _ rfl
      have e1 : (⟨⟨770, p.location.y⟩, none⟩ : RouteNodeData) = street 2 p.location.y := by
        simp only [street, RouteNodeData.mk.injEq, Point.mk.injEq, and_true]
        norm_num
      rw [e1] at ht'
      have hle : (k' : Rat) ≤ k := by exact_mod_cast hle
      obtain ⟨g1, g2⟩ := frame_places (cs := cs) h hy'
      have := (((show Reach ns cs e 2 p.location.y k' from ⟨z', k', ht', hz', le_refl _⟩).along h g2).frame_left h hy').along h f2
      refine this.mono ?_
      simp only [hs]
      push_cast
      linarith

/-- The side ends of a last column can be reached from the corner of a table of the same column of tables. -/
theorem reach_last (h : Ok ns cs) {c r w k j : Nat} (hT : Tab ns c r w) (hk : k % 3 = c) (hn : ns[k]? = some (j + 2))
    (hsub : ∀ x ∈ endsOf ns (.column k j), x ∈ ES) : ∀ i, (i = c ∨ i = c + 1) → Reach ns cs (.column k j) i (rowTop ns r - 40)
      (|rowTop ns (k / 3) + 35 * ((j + 2 : Nat) : Rat) - 35 / 2 - (rowTop ns r - 40)| + 40) := by
  subst hk
  have hfr : FrameSide ns (k % 3) (rowTop ns r - 40) := ⟨r, w, hT, .inl rfl⟩
  obtain ⟨f1, f2⟩ := frame_places (cs := cs) h hfr
  have he := last_ends hn
  rintro i (rfl | rfl)
  · have hl : (⟨50 + 380 * ((k % 3 : Nat) : Rat), rowTop ns (k / 3) + 35 * ((j + 2 : Nat) : Rat) - 35 / 2⟩, .left) ∈ endsOf ns (.column k j) := by
      rw [he]; simp
    obtain ⟨g1, k1, t1, b1⟩ := left_trip h (mem_place_end (hsub _ hl))
    exact (show Reach ns cs (.column k j) _ _ 40 from ⟨_, k1, t1, ⟨_, hl⟩, b1⟩).along h f1
  · have hl : (⟨350 + 380 * ((k % 3 : Nat) : Rat), rowTop ns (k / 3) + 35 * ((j + 2 : Nat) : Rat) - 35 / 2⟩, .right) ∈ endsOf ns (.column k j) := by
      rw [he]; simp
    obtain ⟨g1, k1, t1, b1⟩ := right_trip h (mem_place_end (hsub _ hl))
    exact (show Reach ns cs (.column k j) _ _ 40 from ⟨_, k1, t1, ⟨_, hl⟩, b1⟩).along h f2

end

end Seiren.Grid
