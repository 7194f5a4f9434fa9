import Verif.Proofs.GridWays
import Verif.Props.RouteLength
/-! # A module one of whose routes is not the shortest

Rows of three tables with 4, 4 and 6 lines.  The first relation leads from the first table of the first row to the second table of
the last row, and the street between these two columns of tables is the shortest way.  Whole tables of the second and third
column, and columns of the third ones, are also ends of relations, so that the next street has many more crossings, alternately at
whole and half heights.  As the search rounds the length of each segment down, that street looks shorter. -/

namespace Seiren

/-! ## Lengths and costs of paths -/

namespace Spec

theorem distance_triangle (a b c : Point) : distance a c ≤ distance a b + distance b c := by
  have h1 := abs_sub_le a.x b.x c.x
  have h2 := abs_sub_le a.y b.y c.y
  simp only [distance]
  linarith

theorem distance_nonneg (a b : Point) : 0 ≤ distance a b := add_nonneg (abs_nonneg _) (abs_nonneg _)

/-- A path is not shorter than the way from its start to its end. -/
theorem distance_le_length : ∀ (ps : List Point) (a z : Point), (a :: ps).getLast? = some z → distance a z ≤ pathLength (a :: ps) := by
  intro ps
  induction ps with
  | nil =>
    intro a z h
    simp only [List.getLast?_singleton, Option.some.injEq] at h
    subst h
    simp [distance, pathLength]
  | cons b ps ih =>
    intro a z h
    rw [List.getLast?_cons_cons] at h
    have := ih b z h
    have := distance_triangle a b z
    simp only [pathLength] at *
    linarith

/-- A path is not shorter than the way over any of its points. -/
theorem distance_over : ∀ (ps : List Point) (a z p : Point), (a :: ps).getLast? = some z → p ∈ a :: ps →
    distance a p + distance p z ≤ pathLength (a :: ps) := by
  intro ps
  induction ps with
  | nil =>
    intro a z p h hp
    simp only [List.getLast?_singleton, Option.some.injEq, List.mem_singleton] at h hp
    subst h
    subst hp
    simp [distance, pathLength]
  | cons b ps ih =>
    intro a z p h hp
    rcases List.mem_cons.mp hp with rfl | hp
    · have := distance_le_length _ _ _ h
      have e : distance p p = 0 := by simp [distance]
      linarith
    · rw [List.getLast?_cons_cons] at h
      have := ih b z p h hp
      have := distance_triangle a b p
      simp only [pathLength] at *
      linarith

end Spec

open Spec

/-- The height moved into the range from `a` to `b`. -/
def clamp (a b y : Rat) : Rat := max a (min b y)

theorem clamp_near (a b y y' : Rat) : |clamp a b y - clamp a b y'| ≤ |y - y'| := by
  unfold clamp
  rcases le_total b y with h1 | h1 <;> rcases le_total b y' with h2 | h2 <;>
    simp only [h1, h2, min_eq_left, min_eq_right] <;>
    [skip; rcases le_total a y' with h4 | h4; rcases le_total a y with h3 | h3; (rcases le_total a y with h3 | h3 <;> rcases le_total a y' with h4 | h4)] <;>
    rcases le_total a b with h5 | h5 <;> simp only [*, max_eq_left, max_eq_right] <;>
    rw [abs_le] <;> constructor <;> (first | (have := neg_abs_le (y - y'); have := le_abs_self (y - y'); have := abs_nonneg (y - y'); linarith))

/-- If all positions are whole after moving the heights into a range, so is the cost at least the way in that range. -/
theorem clamp_cost (a b : Rat) : ∀ (ps : List Point) (p z : Point), (p :: ps).getLast? = some z →
    (∀ q ∈ p :: ps, (∃ i : Int, q.x = i) ∧ ∃ i : Int, clamp a b q.y = i) →
    |z.x - p.x| + |clamp a b z.y - clamp a b p.y| ≤ routeCost (p :: ps) := by
  intro ps
  induction ps with
  | nil =>
    intro p z h _
    simp only [List.getLast?_singleton, Option.some.injEq] at h
    subst h
    simp [routeCost]
  | cons q ps ih =>
    intro p z h hint
    rw [List.getLast?_cons_cons] at h
    have h1 := ih q z h fun r hr => hint r (List.mem_cons_of_mem _ hr)
    obtain ⟨⟨i, hi⟩, j, hj⟩ := hint p (by simp)
    obtain ⟨⟨i', hi'⟩, j', hj'⟩ := hint q (by simp)
    have h2 : ((|i' - i| + |j' - j| : Int) : Rat) ≤ segmentCost p q := by
      have : (|i' - i| + |j' - j| : Int) ≤ segmentCost p q := by
        unfold segmentCost
        rw [Rat.le_floor_iff]
        have := clamp_near a b q.y p.y
        rw [hj, hj'] at this
        push_cast
        rw [hi, hi']
        linarith
      exact_mod_cast this
    push_cast at h2
    have h3 := abs_sub_le z.x q.x p.x
    have h4 := abs_sub_le (clamp a b z.y) (clamp a b q.y) (clamp a b p.y)
    rw [← hi, ← hi', ← hj, ← hj'] at h2
    simp only [routeCost]
    push_cast
    linarith

/-! ## Ways and their length -/

/-- A way along roads from one place to another, and its length. -/
inductive Way (ns : List Nat) (pl : List RouteNodeData) : RouteNodeData → RouteNodeData → Rat → Prop
  | here {n : RouteNodeData} : n ∈ pl → Way ns pl n n 0
  | go {n m z : RouteNodeData} {l : Rat} : RoadBetween ns pl n m → Way ns pl m z l →
      Way ns pl n z (distance n.location m.location + l)

theorem Way.append {ns : List Nat} {pl : List RouteNodeData} {a b z : RouteNodeData} {l l' : Rat} (h : Way ns pl a b l)
    (h' : Way ns pl b z l') : Way ns pl a z (l + l') := by
  induction h with
  | here _ => rw [zero_add]; exact h'
  | go hr _ ih => rw [add_assoc]; exact .go hr (ih h')

theorem Way.one {ns : List Nat} {pl : List RouteNodeData} {a b : RouteNodeData} (h : RoadBetween ns pl a b) :
    Way ns pl a b (distance a.location b.location) := by
  have := Way.go h (.here h.symm.left)
  rwa [add_zero] at this

/-- A way is a route. -/
theorem Way.follows {ns : List Nat} {pl : List RouteNodeData} (hnd : pl.Nodup) {a z : RouteNodeData} {l : Rat} (h : Way ns pl a z l) :
    ∃ i w p ps, pl[i]? = some a ∧ p = a.location ∧ Follows ns pl (i :: w) (p :: ps) ∧ (p :: ps).getLast? = some z.location ∧
      pathLength (p :: ps) = l := by
  induction h with
  | here h =>
    rename_i n
    obtain ⟨i, hi⟩ := List.getElem?_of_mem h
    refine ⟨i, [], n.location, [], hi, rfl, ⟨?_, .cons ⟨n, hi, rfl⟩ .nil⟩, rfl, rfl⟩
    intro k x y _ hy
    simp at hy
  | go hr ht ih =>
    rename_i n m z c
    obtain ⟨j, w, p, ps, hj, rfl, ⟨hf1, hf2⟩, hlast, hcost⟩ := ih
    obtain ⟨a, b, ha, hb, hroad⟩ := hr
    have hjb : j = b := by
      have hlt : j < pl.length := (List.getElem?_eq_some_iff.mp hj).1
      exact (List.getElem?_inj hlt hnd).mp (hj.trans hb.symm)
    subst hjb
    refine ⟨a, j :: w, n.location, m.location :: ps, ha, rfl, ⟨?_, .cons ⟨n, ha, rfl⟩ hf2⟩, ?_, ?_⟩
    · intro k x y hx hy
      cases k with
      | zero =>
        simp only [List.getElem?_cons_zero, Nat.zero_add, List.getElem?_cons_succ, Option.some.injEq] at hx hy
        rw [← hx, ← hy]; exact hroad
      | succ k => exact hf1 k x y hx hy
    · rw [List.getLast?_cons_cons]; exact hlast
    · rw [pathLength, hcost]

namespace Grid

section
variable {ns : List Nat} {cs : List (NodeRef × NodeRef)}

local notation "ES" => allEnds ns cs
local notation "PL" => places ns (allEnds ns cs)

/-- A street can be followed downwards without detours. -/
theorem street_way (h : Ok ns cs) {i : Nat} {x : Rat} (hx : x = 10 + 380 * (i : Rat)) {y' : Rat}
    (hz : (⟨⟨x, y'⟩, none⟩ : RouteNodeData) ∈ PL) : ∀ (N : Nat) (y : Rat), (⟨⟨x, y⟩, none⟩ : RouteNodeData) ∈ PL → y < y' →
      ((PL).filter fun p => p.location.x = x ∧ y < p.location.y).length ≤ N →
      Way ns PL ⟨⟨x, y⟩, none⟩ ⟨⟨x, y'⟩, none⟩ (y' - y) := by
  intro N
  induction N with
  | zero =>
    intro y hn hlt hN
    have : (⟨⟨x, y'⟩, none⟩ : RouteNodeData) ∈ (PL).filter fun p => p.location.x = x ∧ y < p.location.y :=
      List.mem_filter.mpr ⟨hz, by simp [hlt]⟩
    rw [List.eq_nil_of_length_eq_zero (Nat.le_zero.mp hN)] at this
    cases this
  | succ N ih =>
    intro y hn hlt hN
    obtain ⟨a, ha⟩ := List.getElem?_of_mem hn
    have hah : Ahead .down (⟨⟨x, y⟩, none⟩ : RouteNodeData) ⟨⟨x, y'⟩, none⟩ := ⟨⟨rfl, hlt⟩, .inl rfl, .inl rfl⟩
    obtain ⟨b, m, hb, hnb⟩ := neighbour_exists (ns := ns) ha hz hah
    have hmm := List.mem_of_getElem? hb
    have hroad : RoadBetween ns PL ⟨⟨x, y⟩, none⟩ m := ⟨a, b, ha, hb, .down, .inl hnb⟩
    obtain ⟨⟨hmx, hmy⟩, -, -⟩ := neighbour_ahead hnb ha hb
    simp only at hmx hmy
    have hle := neighbour_le hnb ha hb hz hah (by
      rintro ⟨-, r, hr, t, t0, t1, h1, h2, -⟩
      obtain ⟨k, r', w, hk, rfl⟩ := mem_rects.mp hr
      simp only [inside, lerp, sub_self, mul_zero, add_zero] at h1 h2
      rcases street_off (k := k) hx with h3 | h3 <;> linarith)
    simp only [distance, hmx, sub_self, abs_zero, zero_add] at hle
    rw [abs_of_neg (by linarith), abs_of_neg (by linarith)] at hle
    have em : m = ⟨⟨x, m.location.y⟩, none⟩ := rnd_eq (street_none h hmm (hmx.trans hx)) hmx rfl
    generalize m.location.y = ym at em hmy hle
    subst em
    have hdist : distance ⟨x, y⟩ ⟨x, ym⟩ = ym - y := by
      simp only [distance, sub_self, abs_zero, zero_add]
      rw [abs_of_neg (by linarith)]
      ring
    rcases eq_or_lt_of_le (by linarith : ym ≤ y') with rfl | hlt'
    · have := Way.one hroad
      rwa [hdist] at this
    · have hc := ih ym hmm hlt' (by
        have hsub : ((PL).filter fun p => p.location.x = x ∧ ym < p.location.y).length <
            ((PL).filter fun p => p.location.x = x ∧ y < p.location.y).length := by
          have e : (PL).filter (fun p => p.location.x = x ∧ ym < p.location.y) =
              ((PL).filter fun p => p.location.x = x ∧ y < p.location.y).filter fun p => decide (ym < p.location.y) := by
            rw [List.filter_filter]
            apply List.filter_congr
            intro p _
            simp only [Bool.decide_and, ← Bool.and_assoc]
            by_cases h1 : ym < p.location.y
            · have h2 : y < p.location.y := lt_trans hmy h1
              simp [h1, h2]
            · simp [h1]
          rw [e]
          have hmf : (⟨⟨x, ym⟩, none⟩ : RouteNodeData) ∈ (PL).filter fun p => p.location.x = x ∧ y < p.location.y :=
            List.mem_filter.mpr ⟨hmm, by simp [hmy]⟩
          exact List.length_filter_lt_length_iff_exists.mpr ⟨_, hmf, by simp⟩
        omega)
      have := Way.go hroad hc
      simp only [hdist] at this
      rwa [show ym - y + (y' - ym) = y' - y by ring] at this

/-- A right end is joined to the street after it. -/
theorem right_road (h : Ok ns cs) {c : Nat} {y : Rat} (hn : (⟨⟨350 + 380 * (c : Rat), y⟩, some .right⟩ : RouteNodeData) ∈ PL) :
    RoadBetween ns PL ⟨⟨350 + 380 * (c : Rat), y⟩, some .right⟩ (street (c + 1) y) := by
  obtain ⟨hz, -⟩ := right_trip h hn
  obtain ⟨a, ha⟩ := List.getElem?_of_mem hn
  have hah : Ahead .right (⟨⟨350 + 380 * (c : Rat), y⟩, some .right⟩ : RouteNodeData) (street (c + 1) y) :=
    ⟨⟨rfl, by simp only; push_cast; linarith⟩, .inr rfl, .inl rfl⟩
  obtain ⟨b, m, hb, hnb⟩ := neighbour_exists (ns := ns) ha hz hah
  have hmm := List.mem_of_getElem? hb
  obtain ⟨⟨hmy, hmx⟩, -, ho⟩ := neighbour_ahead hnb ha hb
  simp only at hmx hmy
  have hle := neighbour_le hnb ha hb hz hah (free_right rfl (by simp only; push_cast; linarith) (by
    rintro k r' w hk ⟨p1, p2, -, -⟩
    simp only at p1 p2
    push_cast at p2
    rcases Nat.lt_or_ge c k with hlt | hge
    · have : (c : Rat) + 1 ≤ k := by exact_mod_cast hlt
      linarith
    · have : (k : Rat) ≤ c := by exact_mod_cast hge
      linarith))
  simp only [distance, hmy, sub_self, abs_zero, add_zero] at hle
  rw [abs_of_neg (by linarith), abs_of_neg (by push_cast; linarith)] at hle
  push_cast at hle
  have hx : m.location.x = 10 + 380 * ((c + 1 : Nat) : Rat) := by
    push_cast
    obtain ⟨i, -, hcase⟩ := place_x h hmm
    have hi : (i : Rat) ≤ c ∨ i = c + 1 ∨ (c : Rat) + 2 ≤ i := by
      rcases Nat.lt_trichotomy i (c + 1) with h1 | h1 | h1
      · left; exact_mod_cast Nat.lt_succ_iff.mp h1
      · exact .inr (.inl h1)
      · right; right; exact_mod_cast h1
    rcases hi with hi | rfl | hi <;> rcases hcase with ⟨-, hx⟩ | ⟨-, ⟨-, hx⟩ | hx | ⟨-, hx⟩⟩ <;>
      (try push_cast at hx) <;> linarith
  rw [rnd_eq (street_none h hmm hx) hx hmy] at hb
  exact ⟨a, b, ha, hb, .right, .inl hnb⟩

/-- A left end is joined to the street before it. -/
theorem left_road (h : Ok ns cs) {c : Nat} {y : Rat} (hn : (⟨⟨50 + 380 * (c : Rat), y⟩, some .left⟩ : RouteNodeData) ∈ PL) :
    RoadBetween ns PL (street c y) ⟨⟨50 + 380 * (c : Rat), y⟩, some .left⟩ := by
  obtain ⟨hz, -⟩ := left_trip h hn
  obtain ⟨a, ha⟩ := List.getElem?_of_mem hn
  have hah : Ahead .left (⟨⟨50 + 380 * (c : Rat), y⟩, some .left⟩ : RouteNodeData) (street c y) :=
    ⟨⟨rfl, by simp only; linarith⟩, .inr rfl, .inl rfl⟩
  obtain ⟨b, m, hb, hnb⟩ := neighbour_exists (ns := ns) ha hz hah
  have hmm := List.mem_of_getElem? hb
  obtain ⟨⟨hmy, hmx⟩, -, ho⟩ := neighbour_ahead hnb ha hb
  simp only at hmx hmy
  have hle := neighbour_le hnb ha hb hz hah (free_left rfl (by simp only; linarith) (by
    rintro k r' w hk ⟨p1, p2, -, -⟩
    simp only at p1 p2
    rcases Nat.lt_or_ge k c with hlt | hge
    · have : (k : Rat) + 1 ≤ c := by exact_mod_cast hlt
      linarith
    · have : (c : Rat) ≤ k := by exact_mod_cast hge
      linarith))
  simp only [distance, hmy, sub_self, abs_zero, add_zero] at hle
  rw [abs_of_pos (by linarith), abs_of_pos (by linarith)] at hle
  have hx : m.location.x = 10 + 380 * (c : Rat) := by
    obtain ⟨i, -, hcase⟩ := place_x h hmm
    have hi : (i : Rat) + 1 ≤ c ∨ i = c ∨ (c : Rat) + 1 ≤ i := by
      rcases Nat.lt_trichotomy i c with h1 | h1 | h1
      · left; exact_mod_cast h1
      · exact .inr (.inl h1)
      · right; right; exact_mod_cast h1
    rcases hi with hi | rfl | hi <;> rcases hcase with ⟨-, hx⟩ | ⟨-, ⟨-, hx⟩ | hx | ⟨-, hx⟩⟩ <;> linarith
  rw [rnd_eq (street_none h hmm hx) hx hmy] at hb
  exact ⟨b, a, hb, ha, .left, .inr hnb⟩

end

/-! ## The module -/

namespace Long

/-- The numbers of lines: 4, 4 and 6 in each of the rows 0 to `N`. -/
def lines (N : Nat) : List Nat := (List.range (3 * (N + 1))).map fun k => if k % 3 = 2 then 6 else 4

/-- The second table of row `r` and what it is related to: the third table and its first three columns. -/
def rowConnections (r : Nat) : List (NodeRef × NodeRef) :=
  [(.table (3 * r + 1), .table (3 * r + 2)), (.table (3 * r + 1), .column (3 * r + 2) 0),
    (.table (3 * r + 1), .column (3 * r + 2) 1), (.table (3 * r + 1), .column (3 * r + 2) 2)]

/-- The first column of the first table and the first column of the second table in the last row; and all rows. -/
def conns (N : Nat) : List (NodeRef × NodeRef) :=
  (.column 0 0, .column (3 * N + 1) 0) :: (List.range (N + 1)).flatMap rowConnections

theorem lines_get (N k : Nat) (h : k < 3 * (N + 1)) : (lines N)[k]? = some (if k % 3 = 2 then 6 else 4) := by
  simp [lines, h]

theorem lines_some {N k n : Nat} (h : (lines N)[k]? = some n) : k < 3 * (N + 1) ∧ n = if k % 3 = 2 then 6 else 4 := by
  have hk : k < 3 * (N + 1) := by
    have := (List.getElem?_eq_some_iff.mp h).1
    simpa [lines] using this
  rw [lines_get N k hk] at h
  exact ⟨hk, (Option.some.inj h).symm⟩

theorem tab {N c r : Nat} (hc : c < 3) (hr : r ≤ N) : Tab (lines N) c r (if c = 2 then 6 else 4) := by
  refine ⟨hc, ?_⟩
  rw [lines_get N _ (by omega)]
  have : (3 * r + c) % 3 = c := by omega
  rw [this]

theorem tab_inv {N c r m : Nat} (h : Tab (lines N) c r m) : c < 3 ∧ r ≤ N ∧ m = if c = 2 then 6 else 4 := by
  obtain ⟨hc, h⟩ := h
  obtain ⟨h1, h2⟩ := lines_some h
  have : (3 * r + c) % 3 = c := by omega
  rw [this] at h2
  exact ⟨hc, by omega, h2⟩

theorem tallest_eq {N r : Nat} (hr : r ≤ N) : tallest (lines N) r = 6 := by
  unfold tallest
  rw [lines_get N _ (by omega), lines_get N _ (by omega), lines_get N _ (by omega)]
  have e1 : (3 * r) % 3 = 0 := by omega
  have e2 : (3 * r + 1) % 3 = 1 := by omega
  have e3 : (3 * r + 2) % 3 = 2 := by omega
  rw [e1, e2, e3]
  rfl

theorem rowTop_eq {N r : Nat} (hr : r ≤ N + 1) : rowTop (lines N) r = 50 + 290 * (r : Rat) := by
  induction r with
  | zero => simp [rowTop]
  | succ r ih =>
    rw [rowTop, ih (by omega), tallest_eq (by omega)]
    push_cast
    ring

theorem mem_conns {N : Nat} {c : NodeRef × NodeRef} (h : c ∈ conns N) :
    c = (.column 0 0, .column (3 * N + 1) 0) ∨ ∃ r ≤ N, c.1 = .table (3 * r + 1) ∧
      (c.2 = .table (3 * r + 2) ∨ ∃ j ≤ 2, c.2 = .column (3 * r + 2) j) := by
  simp only [conns, List.mem_cons, List.mem_flatMap, List.mem_range, rowConnections, List.not_mem_nil, or_false] at h
  rcases h with rfl | ⟨r, hr, rfl | rfl | rfl | rfl⟩
  · exact .inl rfl
  · exact .inr ⟨r, by omega, rfl, .inl rfl⟩
  · exact .inr ⟨r, by omega, rfl, .inr ⟨0, by omega, rfl⟩⟩
  · exact .inr ⟨r, by omega, rfl, .inr ⟨1, by omega, rfl⟩⟩
  · exact .inr ⟨r, by omega, rfl, .inr ⟨2, by omega, rfl⟩⟩

theorem ok (N : Nat) : Ok (lines N) (conns N) := by
  constructor
  · intro k n h
    obtain ⟨-, rfl⟩ := lines_some h
    split <;> omega
  · intro c hc
    rcases mem_conns hc with rfl | ⟨r, hr, h1, h2⟩
    · exact ⟨⟨4, lines_get N 0 (by omega), by omega⟩, ⟨4, by rw [lines_get N _ (by omega)]; rw [if_neg (by omega)], by omega⟩⟩
    · rw [h1]
      refine ⟨⟨_, lines_get N _ (by omega)⟩, ?_⟩
      rcases h2 with h2 | ⟨j, hj, h2⟩ <;> rw [h2]
      · exact ⟨_, lines_get N _ (by omega)⟩
      · exact ⟨6, by rw [lines_get N _ (by omega)]; rw [if_pos (by omega)], by omega⟩

/-! ## Ends -/

theorem sides_column {N k j : Nat} (hk : k < 3 * (N + 1)) (hj : j ≤ 2) (h : k % 3 = 2 ∨ j ≤ 1) {p : Point} {o : Orientation} :
    (p, o) ∈ endsOf (lines N) (.column k j) ↔
      (p = ⟨350 + 380 * ((k % 3 : Nat) : Rat), 50 + 290 * ((k / 3 : Nat) : Rat) + 35 * (j : Rat) + 105 / 2⟩ ∧ o = .right) ∨
      (p = ⟨50 + 380 * ((k % 3 : Nat) : Rat), 50 + 290 * ((k / 3 : Nat) : Rat) + 35 * (j : Rat) + 105 / 2⟩ ∧ o = .left) := by
  have hne : ¬ (lines N)[k]? = some (j + 2) := by
    rw [lines_get N k hk]
    simp only [Option.some.injEq]
    split <;> omega
  have e1 : 50 + 290 * ((k / 3 : Nat) : Rat) + 35 * ((j + 1 : Nat) : Rat) + 35 / 2 =
      50 + 290 * ((k / 3 : Nat) : Rat) + 35 * (j : Rat) + 105 / 2 := by push_cast; ring
  have e2 : 50 + 380 * ((k % 3 : Nat) : Rat) + 300 = 350 + 380 * ((k % 3 : Nat) : Rat) := by ring
  simp only [endsOf, sidesOf, hne, if_false, List.map_cons, List.map_nil, refRect, lineRect, sideMiddle,
    rowTop_eq (N := N) (r := k / 3) (by omega), e1, e2, List.mem_cons, List.not_mem_nil, or_false, Prod.mk.injEq]

theorem sides_table {N k : Nat} (hk : k < 3 * (N + 1)) {p : Point} {o : Orientation} (h : (p, o) ∈ endsOf (lines N) (.table k)) :
    ((o = .left ∨ o = .right) → p.y = 50 + 290 * ((k / 3 : Nat) : Rat) + (if k % 3 = 2 then 105 else 70)) := by
  intro ho
  simp only [endsOf, sidesOf, List.map_cons, List.map_nil, refRect, lines_get N k hk, Option.getD_some, tableRect, sideMiddle,
    rowTop_eq (N := N) (r := k / 3) (by omega), List.mem_cons, List.not_mem_nil, or_false, Prod.mk.injEq] at h
  rcases h with ⟨rfl, rfl⟩ | ⟨rfl, rfl⟩ | ⟨rfl, rfl⟩ | ⟨rfl, rfl⟩
  · simp at ho
  · simp only; split <;> norm_num
  · simp at ho
  · simp only; split <;> norm_num

theorem end_of_conn {N : Nat} {c : NodeRef × NodeRef} (hc : c ∈ conns N) {e : Point × Orientation}
    (he : e ∈ endsOf (lines N) c.1 ∨ e ∈ endsOf (lines N) c.2) : e ∈ allEnds (lines N) (conns N) := by
  simp only [allEnds, List.mem_flatMap, List.mem_append]
  exact ⟨c, hc, he⟩

theorem row_mem {N r : Nat} (hr : r ≤ N) {c : NodeRef × NodeRef} (hc : c ∈ rowConnections r) : c ∈ conns N := by
  simp only [conns, List.mem_cons, List.mem_flatMap, List.mem_range]
  exact .inr ⟨r, by omega, hc⟩

/-- The heights of ends at the left and right of tables. -/
theorem side_end {N : Nat} {p : Point} {o : Orientation} (h : (p, o) ∈ allEnds (lines N) (conns N)) (ho : o = .left ∨ o = .right) :
    p.y = 205 / 2 ∨ p.y = 205 / 2 + 290 * (N : Rat) ∨ (∃ i : Int, p.y = i) ∨ 800 ≤ p.x := by
  simp only [allEnds, List.mem_flatMap, List.mem_append] at h
  obtain ⟨c, hc, h⟩ := h
  have htable : ∀ k, k < 3 * (N + 1) → (p, o) ∈ endsOf (lines N) (.table k) → ∃ i : Int, p.y = i := by
    intro k hk hp
    have := sides_table hk hp ho
    refine ⟨50 + 290 * ((k / 3 : Nat) : Int) + (if k % 3 = 2 then 105 else 70), ?_⟩
    rw [this]
    generalize k / 3 = a
    push_cast
    split <;> norm_num
  rcases mem_conns hc with rfl | ⟨r, hr, h1, h2⟩
  · rcases h with h | h
    · rw [sides_column (by omega) (by omega) (by omega)] at h
      left
      rcases h with ⟨rfl, -⟩ | ⟨rfl, -⟩ <;> norm_num
    · rw [sides_column (by omega) (by omega) (by omega)] at h
      right; left
      have e : (3 * N + 1) / 3 = N := by omega
      rw [e] at h
      rcases h with ⟨rfl, -⟩ | ⟨rfl, -⟩ <;> simp only <;> push_cast <;> ring
  · rw [h1] at h
    rcases h with h | h
    · exact .inr (.inr (.inl (htable _ (by omega) h)))
    · rcases h2 with h2 | ⟨j, hj, h2⟩ <;> rw [h2] at h
      · exact .inr (.inr (.inl (htable _ (by omega) h)))
      · rw [sides_column (by omega) hj (by omega)] at h
        have e : (3 * r + 2) % 3 = 2 := by omega
        rw [e] at h
        right; right; right
        rcases h with ⟨rfl, -⟩ | ⟨rfl, -⟩ <;> norm_num

/-- Ends of the third column of tables are at most 180 below the top of their row. -/
theorem third_end {N : Nat} {p : Point} {o : Orientation} (h : (p, o) ∈ allEnds (lines N) (conns N)) (ho : o = .left ∨ o = .right)
    (hx : 800 ≤ p.x) : ∃ r ≤ N, 50 + 290 * (r : Rat) ≤ p.y ∧ p.y ≤ 50 + 290 * (r : Rat) + 180 := by
  simp only [allEnds, List.mem_flatMap, List.mem_append] at h
  obtain ⟨c, hc, h⟩ := h
  have htable : ∀ k, k < 3 * (N + 1) → (p, o) ∈ endsOf (lines N) (.table k) →
      ∃ r ≤ N, 50 + 290 * (r : Rat) ≤ p.y ∧ p.y ≤ 50 + 290 * (r : Rat) + 180 := by
    intro k hk hp
    have := sides_table hk hp ho
    refine ⟨k / 3, by omega, ?_⟩
    rw [this]
    split <;> constructor <;> linarith
  have hcol : ∀ k j, k < 3 * (N + 1) → j ≤ 2 → (k % 3 = 2 ∨ j ≤ 1) → (p, o) ∈ endsOf (lines N) (.column k j) →
      ∃ r ≤ N, 50 + 290 * (r : Rat) ≤ p.y ∧ p.y ≤ 50 + 290 * (r : Rat) + 180 := by
    intro k j hk hj hkj hp
    rw [sides_column hk hj hkj] at hp
    have h0 : (0 : Rat) ≤ j := by exact_mod_cast Nat.zero_le j
    have h2 : (j : Rat) ≤ 2 := by exact_mod_cast hj
    refine ⟨k / 3, by omega, ?_⟩
    rcases hp with ⟨rfl, -⟩ | ⟨rfl, -⟩ <;> constructor <;> simp only <;> linarith
  rcases mem_conns hc with rfl | ⟨r, hr, h1, h2⟩
  · rcases h with h | h
    · exact hcol _ _ (by omega) (by omega) (by omega) h
    · exact hcol _ _ (by omega) (by omega) (by omega) h
  · rw [h1] at h
    rcases h with h | h
    · exact htable _ (by omega) h
    · rcases h2 with h2 | ⟨j, hj, h2⟩ <;> rw [h2] at h
      · exact htable _ (by omega) h
      · exact hcol _ _ (by omega) hj (by omega) h

/-- Between the first two columns of tables, half heights occur at the ends of the first relation only. -/
theorem narrow {N : Nat} {n : RouteNodeData} (hn : n ∈ places (lines N) (allEnds (lines N) (conns N))) (h1 : 350 ≤ n.location.x)
    (h2 : n.location.x ≤ 430) : n.location.y = 205 / 2 ∨ n.location.y = 205 / 2 + 290 * (N : Rat) ∨ ∃ i : Int, n.location.y = i := by
  have corner : ∀ {j : Point}, j ∈ corners (lines N) → ∃ i : Int, j.y = i := by
    intro j hj
    obtain ⟨c, r, m, hm, -, hy⟩ := mem_corners.mp hj
    obtain ⟨-, hr, hme⟩ := tab_inv hm
    rw [rowTop_eq (by omega)] at hy
    rcases hy with hy | hy
    · exact ⟨50 + 290 * (r : Int) - 40, by rw [hy]; push_cast; ring⟩
    · exact ⟨50 + 290 * (r : Int) + 35 * (m : Int) + 40, by rw [hy]; push_cast; ring⟩
  have side : ∀ {p : Point} {o : Orientation}, (p, o) ∈ allEnds (lines N) (conns N) → (o = .left ∨ o = .right) → p.x < 800 →
      p.y = n.location.y → n.location.y = 205 / 2 ∨ n.location.y = 205 / 2 + 290 * (N : Rat) ∨ ∃ i : Int, n.location.y = i := by
    intro p o hp ho hx hy
    rw [← hy]
    rcases side_end hp ho with h | h | h | h
    · exact .inl h
    · exact .inr (.inl h)
    · exact .inr (.inr h)
    · linarith
  rcases place_cases (ok N) hn with ⟨-, c, r, m, hm, hx, hy⟩ | ⟨-, c, r, m, hm, -, -, ⟨hs1, hs2⟩, j, hj, hx, hs⟩ |
      ⟨-, -, c, r, m, hm, hx, ⟨j, hj, hy⟩, -⟩ | ⟨c, r, m, hm, he⟩
  · have hj : n.location ∈ corners (lines N) := mem_corners.mpr ⟨c, r, m, hm, hx, hy⟩
    exact .inr (.inr (corner hj))
  · obtain ⟨hc, hr, -⟩ := tab_inv hm
    have : c = 0 ∨ c = 1 ∨ c = 2 := by omega
    rcases this with rfl | rfl | rfl
    · exact side hs1 (.inl rfl) (by norm_num) rfl
    · exact side hs1 (.inl rfl) (by norm_num) rfl
    · exfalso
      rcases hs with hs | hs
      · obtain ⟨r', hr', y1, y2⟩ := third_end hs1 (.inl rfl) (by norm_num)
        simp only at y1 y2
        have := hs.2 _ (tab (c := 1) (by omega) hr').mem ⟨by simp only [rowTop_eq (N := N) (r := r') (by omega)]; linarith,
          by simp only [rowTop_eq (N := N) (r := r') (by omega)]; norm_num; linarith⟩ (by norm_num)
        norm_num at this
        linarith
      · have := hs.1
        norm_num at this
        linarith
  · rw [hy]
    exact .inr (.inr (corner hj))
  · obtain ⟨hc, hr, -⟩ := tab_inv hm
    have : c = 0 ∨ c = 1 ∨ c = 2 := by omega
    rcases he with ⟨ho, hx, -, -, hs1, hs2⟩ | ⟨ho, hx, -, -, hs1, hs2⟩ | ⟨ho, hl, -⟩ | ⟨ho, hl, -⟩
    · refine side hs1 (.inl rfl) ?_ rfl
      simp only
      rw [← hx]; linarith
    · refine side hs2 (.inr rfl) ?_ rfl
      simp only
      rw [← hx]; linarith
    · rw [hl] at h1 h2
      simp only at h1 h2
      rcases this with rfl | rfl | rfl <;> first | (norm_num at h1; done) | norm_num at h2
    · rw [hl] at h1 h2
      simp only at h1 h2
      rcases this with rfl | rfl | rfl <;> first | (norm_num at h1; done) | norm_num at h2

/-! ## The way along the second street -/

section
variable {N : Nat}

local notation "PN" => places (lines N) (allEnds (lines N) (conns N))

/-- A column as an end, at the left. -/
theorem column_left {k j : Nat} (hk : k < 3 * (N + 1)) (hj : j ≤ 2) (h : k % 3 = 2 ∨ j ≤ 1) {c : NodeRef × NodeRef} (hc : c ∈ conns N)
    (hce : c.1 = .column k j ∨ c.2 = .column k j) : (⟨⟨50 + 380 * ((k % 3 : Nat) : Rat),
      50 + 290 * ((k / 3 : Nat) : Rat) + 35 * (j : Rat) + 105 / 2⟩, some .left⟩ : RouteNodeData) ∈ PN := by
  refine mem_places.mpr (.inr ⟨.left, rfl, end_of_conn hc ?_⟩)
  rcases hce with hce | hce <;> rw [hce]
  · exact .inl ((sides_column hk hj h).mpr (.inr ⟨rfl, rfl⟩))
  · exact .inr ((sides_column hk hj h).mpr (.inr ⟨rfl, rfl⟩))

/-- A column as an end, at the right. -/
theorem column_right {k j : Nat} (hk : k < 3 * (N + 1)) (hj : j ≤ 2) (h : k % 3 = 2 ∨ j ≤ 1) {c : NodeRef × NodeRef} (hc : c ∈ conns N)
    (hce : c.1 = .column k j ∨ c.2 = .column k j) : (⟨⟨350 + 380 * ((k % 3 : Nat) : Rat),
      50 + 290 * ((k / 3 : Nat) : Rat) + 35 * (j : Rat) + 105 / 2⟩, some .right⟩ : RouteNodeData) ∈ PN := by
  refine mem_places.mpr (.inr ⟨.right, rfl, end_of_conn hc ?_⟩)
  rcases hce with hce | hce <;> rw [hce]
  · exact .inl ((sides_column hk hj h).mpr (.inl ⟨rfl, rfl⟩))
  · exact .inr ((sides_column hk hj h).mpr (.inl ⟨rfl, rfl⟩))

theorem gap_side {c r : Nat} (hc : c < 3) (hr : r ≤ N) : FrameSide (lines N) c (10 + 290 * (r : Rat)) :=
  ⟨r, _, tab hc hr, .inl (by rw [rowTop_eq (by omega)]; ring)⟩

theorem second_gap {r : Nat} (hr : r ≤ N) : street 2 (10 + 290 * (r : Rat)) ∈ PN :=
  (frame_places (ok N) (gap_side (c := 1) (by omega) hr)).2

theorem second_half {r j : Nat} (hr : r ≤ N) (hj : j ≤ 2) : street 2 (205 / 2 + 290 * (r : Rat) + 35 * (j : Rat)) ∈ PN := by
  have hc : (NodeRef.table (3 * r + 1), NodeRef.column (3 * r + 2) j) ∈ rowConnections r := by
    have : j = 0 ∨ j = 1 ∨ j = 2 := by omega
    rcases this with rfl | rfl | rfl <;> simp [rowConnections]
  have h := column_left (N := N) (k := 3 * r + 2) (by omega) hj (by omega) (row_mem hr hc) (.inr rfl)
  have e1 : (3 * r + 2) % 3 = 2 := by omega
  have e2 : (3 * r + 2) / 3 = r := by omega
  rw [e1, e2] at h
  have := (left_trip (ok N) h).1
  rwa [show 50 + 290 * (r : Rat) + 35 * (j : Rat) + 105 / 2 = 205 / 2 + 290 * (r : Rat) + 35 * (j : Rat) by ring] at this

theorem second_middle {r : Nat} (hr : r ≤ N) : street 2 (120 + 290 * (r : Rat)) ∈ PN := by
  have hc : (NodeRef.table (3 * r + 1), NodeRef.table (3 * r + 2)) ∈ rowConnections r := by simp [rowConnections]
  have h : (⟨⟨350 + 380 * ((1 : Nat) : Rat), 120 + 290 * (r : Rat)⟩, some .right⟩ : RouteNodeData) ∈ PN := by
    refine mem_places.mpr (.inr ⟨.right, rfl, end_of_conn (row_mem hr hc) (.inl ?_)⟩)
    have e1 : (3 * r + 1) % 3 = 1 := by omega
    have e2 : (3 * r + 1) / 3 = r := by omega
    simp only [endsOf, sidesOf, List.map_cons, List.map_nil, refRect, lines_get N (3 * r + 1) (by omega), Option.getD_some, tableRect,
      sideMiddle, e1, e2, rowTop_eq (N := N) (r := r) (by omega), List.mem_cons, List.not_mem_nil, or_false, Prod.mk.injEq, Point.mk.injEq]
    right; left
    refine ⟨⟨by norm_num, by norm_num; ring⟩, trivial⟩
  exact (right_trip (ok N) h).1

theorem third_middle {r : Nat} (hr : r ≤ N) : street 2 (155 + 290 * (r : Rat)) ∈ PN := by
  have hc : (NodeRef.table (3 * r + 1), NodeRef.table (3 * r + 2)) ∈ rowConnections r := by simp [rowConnections]
  have h : (⟨⟨50 + 380 * ((2 : Nat) : Rat), 155 + 290 * (r : Rat)⟩, some .left⟩ : RouteNodeData) ∈ PN := by
    refine mem_places.mpr (.inr ⟨.left, rfl, end_of_conn (row_mem hr hc) (.inr ?_)⟩)
    have e1 : (3 * r + 2) % 3 = 2 := by omega
    have e2 : (3 * r + 2) / 3 = r := by omega
    simp only [endsOf, sidesOf, List.map_cons, List.map_nil, refRect, lines_get N (3 * r + 2) (by omega), Option.getD_some, tableRect,
      sideMiddle, e1, e2, rowTop_eq (N := N) (r := r) (by omega), List.mem_cons, List.not_mem_nil, or_false, Prod.mk.injEq, Point.mk.injEq]
    right; right; right
    refine ⟨⟨by norm_num, by norm_num; ring⟩, trivial⟩
  exact (left_trip (ok N) h).1

/-- Along a street the cost is the length, rounded down. -/
theorem along_floor {i : Nat} {y y' : Rat} (hn : street i y ∈ PN) (hz : street i y' ∈ PN) {d : Rat} {m : Int} (hd : y' - y = d)
    (h0 : 0 ≤ d) (hm : d < m + 1) : ∃ k, Trip (lines N) PN (street i y) (street i y') k ∧ k ≤ m := by
  obtain ⟨k, hk, hkl⟩ := street_trip (ok N) rfl hn hz
  refine ⟨k, hk, hkl.trans ?_⟩
  unfold segmentCost
  simp only [sub_self, abs_zero, zero_add]
  rw [hd, abs_of_nonneg h0]
  have : (d.floor : Rat) < ((m + 1 : Int) : Rat) := lt_of_le_of_lt (Rat.floor_le d) (by push_cast; exact hm)
  have : d.floor < m + 1 := by exact_mod_cast this
  omega

/-- One row costs three less than its height. -/
theorem row_cost {r : Nat} (hr : r + 1 ≤ N) :
    ∃ k, Trip (lines N) PN (street 2 (10 + 290 * (r : Rat))) (street 2 (10 + 290 * ((r + 1 : Nat) : Rat))) k ∧ k ≤ 287 := by
  have p0 := second_gap (N := N) (r := r) (by omega)
  have p1 := second_half (N := N) (r := r) (j := 0) (by omega) (by omega)
  have p2 := second_middle (N := N) (r := r) (by omega)
  have p3 := second_half (N := N) (r := r) (j := 1) (by omega) (by omega)
  have p4 := third_middle (N := N) (r := r) (by omega)
  have p5 := second_half (N := N) (r := r) (j := 2) (by omega) (by omega)
  have p6 := second_gap (N := N) (r := r + 1) (by omega)
  obtain ⟨k1, t1, l1⟩ := along_floor p0 p1 (d := 185 / 2) (m := 92) (by push_cast; ring) (by norm_num) (by norm_num)
  obtain ⟨k2, t2, l2⟩ := along_floor p1 p2 (d := 35 / 2) (m := 17) (by push_cast; ring) (by norm_num) (by norm_num)
  obtain ⟨k3, t3, l3⟩ := along_floor p2 p3 (d := 35 / 2) (m := 17) (by push_cast; ring) (by norm_num) (by norm_num)
  obtain ⟨k4, t4, l4⟩ := along_floor p3 p4 (d := 35 / 2) (m := 17) (by push_cast; ring) (by norm_num) (by norm_num)
  obtain ⟨k5, t5, l5⟩ := along_floor p4 p5 (d := 35 / 2) (m := 17) (by push_cast; ring) (by norm_num) (by norm_num)
  obtain ⟨k6, t6, l6⟩ := along_floor p5 p6 (d := 255 / 2) (m := 127) (by push_cast; ring) (by norm_num) (by norm_num)
  exact ⟨_, ((((t1.append t2).append t3).append t4).append t5).append t6, by omega⟩

theorem rows_cost {n : Nat} (hn : n + 1 ≤ N) :
    ∃ k, Trip (lines N) PN (street 2 (10 + 290 * ((1 : Nat) : Rat))) (street 2 (10 + 290 * ((n + 1 : Nat) : Rat))) k ∧ k ≤ 287 * n := by
  induction n with
  | zero => exact ⟨0, .here (second_gap (by omega)), by omega⟩
  | succ n ih =>
    obtain ⟨k, t, l⟩ := ih (by omega)
    obtain ⟨k', t', l'⟩ := row_cost (N := N) (r := n + 1) (by omega)
    exact ⟨_, t.append t', by push_cast; omega⟩

theorem first_mem : (NodeRef.column 0 0, NodeRef.column (3 * N + 1) 0) ∈ conns N := by simp [conns]

/-- Where the first relation starts, and where it may end. -/
theorem start_place : (⟨⟨350 + 380 * ((0 : Nat) : Rat), 205 / 2⟩, some .right⟩ : RouteNodeData) ∈ PN := by
  have := column_right (N := N) (k := 0) (j := 0) (by omega) (by omega) (by omega) first_mem (.inl rfl)
  norm_num at this ⊢
  exact this

theorem stop_left : (⟨⟨50 + 380 * ((1 : Nat) : Rat), 205 / 2 + 290 * (N : Rat)⟩, some .left⟩ : RouteNodeData) ∈ PN := by
  have := column_left (N := N) (k := 3 * N + 1) (j := 0) (by omega) (by omega) (by omega) first_mem (.inr rfl)
  have e1 : (3 * N + 1) % 3 = 1 := by omega
  have e2 : (3 * N + 1) / 3 = N := by omega
  rw [e1, e2] at this
  convert this using 3
  push_cast
  ring

theorem stop_right : (⟨⟨350 + 380 * ((1 : Nat) : Rat), 205 / 2 + 290 * (N : Rat)⟩, some .right⟩ : RouteNodeData) ∈ PN := by
  have := column_right (N := N) (k := 3 * N + 1) (j := 0) (by omega) (by omega) (by omega) first_mem (.inr rfl)
  have e1 : (3 * N + 1) % 3 = 1 := by omega
  have e2 : (3 * N + 1) / 3 = N := by omega
  rw [e1, e2] at this
  convert this using 3
  push_cast
  ring

/-- The ends of the first relation. -/
theorem start_ends {p : Point} {o : Orientation} : (p, o) ∈ endsOf (lines N) (.column 0 0) ↔
    (p = ⟨350, 205 / 2⟩ ∧ o = .right) ∨ (p = ⟨50, 205 / 2⟩ ∧ o = .left) := by
  rw [sides_column (by omega) (by omega) (by omega)]
  norm_num

theorem stop_ends {p : Point} {o : Orientation} : (p, o) ∈ endsOf (lines N) (.column (3 * N + 1) 0) ↔
    (p = ⟨730, 205 / 2 + 290 * (N : Rat)⟩ ∧ o = .right) ∨ (p = ⟨430, 205 / 2 + 290 * (N : Rat)⟩ ∧ o = .left) := by
  rw [sides_column (by omega) (by omega) (by omega)]
  have e1 : (3 * N + 1) % 3 = 1 := by omega
  have e2 : (3 * N + 1) / 3 = N := by omega
  have e3 : 50 + 290 * (N : Rat) + 35 * ((0 : Nat) : Rat) + 105 / 2 = 205 / 2 + 290 * (N : Rat) := by push_cast; ring
  rw [e1, e2, e3]
  norm_num

theorem isRoute {a z : RouteNodeData} {i : Nat} {w : List Nat} {p : Point} {ps : List Point} (hf : Follows (lines N) PN (i :: w) (p :: ps))
    (hp : p = a.location) (hz : (p :: ps).getLast? = some z.location) (ha : ∃ o, (a.location, o) ∈ endsOf (lines N) (.column 0 0))
    (hze : ∃ o, (z.location, o) ∈ endsOf (lines N) (.column (3 * N + 1) 0)) :
    IsRoute (lines N) (conns N) (.column 0 0, .column (3 * N + 1) 0) (p :: ps) := by
  obtain ⟨o, ho⟩ := ha
  obtain ⟨o', ho'⟩ := hze
  exact ⟨⟨_, hf⟩, ⟨p, o, rfl, hp ▸ ho⟩, ⟨_, o', hz, ho'⟩⟩

/-- A route that looks cheap. -/
theorem cheap (hN : 1 ≤ N) : ∃ ps, IsRoute (lines N) (conns N) (.column 0 0, .column (3 * N + 1) 0) ps ∧
    routeCost ps ≤ 287 * (N : Int) + 462 := by
  obtain ⟨s1, k1, t1, l1⟩ := right_trip (ok N) (start_place (N := N))
  have g1 : street 1 (10 + 290 * ((1 : Nat) : Rat)) ∈ PN := (frame_places (ok N) (gap_side (c := 1) (by omega) hN)).1
  obtain ⟨k2, t2, l2⟩ := along_floor s1 g1 (d := 395 / 2) (m := 197) (by norm_num) (by norm_num) (by norm_num)
  obtain ⟨k3, t3, l3⟩ := frame_trip (cs := conns N) (ok N) (gap_side (c := 1) (by omega) hN)
  obtain ⟨k4, t4, l4⟩ := rows_cost (N := N) (n := N - 1) (by omega)
  have eN : N - 1 + 1 = N := by omega
  rw [eN] at t4
  obtain ⟨s5, k6, t6, l6⟩ := right_trip (ok N) (stop_right (N := N))
  obtain ⟨k5, t5, l5⟩ := along_floor (second_gap (N := N) (r := N) (le_refl _)) s5 (d := 185 / 2) (m := 92) (by ring) (by norm_num) (by norm_num)
  have t := ((((t1.symm.append t2).append t3).append t4).append t5).append t6
  obtain ⟨i, w, p, ps, -, hp, hf, hlast, hcost⟩ := t.follows (places_nodup _ _)
  refine ⟨_, isRoute hf hp hlast ⟨.right, start_ends.mpr (.inl ⟨by norm_num, rfl⟩)⟩ ⟨.right, stop_ends.mpr (.inl ⟨by norm_num, rfl⟩)⟩, ?_⟩
  rw [hcost]
  have l1' : k1 ≤ 40 := by exact_mod_cast l1
  have l3' : k3 ≤ 380 := by exact_mod_cast l3
  have l6' : k6 ≤ 40 := by exact_mod_cast l6
  omega

/-- The direct route. -/
theorem direct (hN : 1 ≤ N) : ∃ ps, IsRoute (lines N) (conns N) (.column 0 0, .column (3 * N + 1) 0) ps ∧
    pathLength ps = 80 + 290 * (N : Rat) := by
  have r1 := right_road (ok N) (start_place (N := N))
  have r2 := left_road (ok N) (stop_left (N := N))
  have hN' : (1 : Rat) ≤ N := by exact_mod_cast hN
  have w := street_way (ok N) (i := 1) rfl r2.left _ _ r1.symm.left (by linarith) (le_refl _)
  have w' := ((Way.one r1).append w).append (Way.one r2)
  obtain ⟨i, v, p, ps, -, hp, hf, hlast, hl⟩ := w'.follows (places_nodup _ _)
  refine ⟨_, isRoute hf hp hlast ⟨.right, start_ends.mpr (.inl ⟨by norm_num, rfl⟩)⟩ ⟨.left, stop_ends.mpr (.inr ⟨by norm_num, rfl⟩)⟩, ?_⟩
  rw [hl]
  simp only [distance, sub_self, abs_zero, add_zero]
  norm_num
  ring

/-- Any route that is not longer than the direct one is not cheap. -/
theorem dear {ps : List Point} (h : IsRoute (lines N) (conns N) (.column 0 0, .column (3 * N + 1) 0) ps)
    (hl : pathLength ps ≤ 80 + 290 * (N : Rat)) : 79 + 290 * (N : Rat) ≤ routeCost ps := by
  obtain ⟨⟨w, hf⟩, ⟨a, o, ha, hae⟩, ⟨z, o', hz, hze⟩⟩ := h
  cases ps with
  | nil => simp at ha
  | cons p ps =>
    simp only [List.head?_cons, Option.some.injEq] at ha
    subst ha
    have hN' : (0 : Rat) ≤ N := by exact_mod_cast Nat.zero_le N
    have hd := distance_le_length _ _ _ hz
    have hpz : p = ⟨350, 205 / 2⟩ ∧ z = ⟨430, 205 / 2 + 290 * (N : Rat)⟩ := by
      have hvert : |205 / 2 - (205 / 2 + 290 * (N : Rat))| = 290 * (N : Rat) := by
        rw [abs_of_nonpos (by linarith)]; ring
      rcases start_ends.mp hae with ⟨rfl, -⟩ | ⟨rfl, -⟩ <;> rcases stop_ends.mp hze with ⟨rfl, -⟩ | ⟨rfl, -⟩ <;>
        simp only [distance, hvert] at hd
      · norm_num at hd; linarith
      · exact ⟨rfl, rfl⟩
      · norm_num at hd; linarith
      · norm_num at hd; linarith
    obtain ⟨rfl, rfl⟩ := hpz
    have hbox : ∀ q ∈ (⟨350, 205 / 2⟩ : Point) :: ps, 350 ≤ q.x ∧ q.x ≤ 430 := by
      intro q hq
      have := distance_over _ _ _ q hz hq
      simp only [distance] at this
      have v := abs_sub_le (205 / 2 : Rat) q.y (205 / 2 + 290 * (N : Rat))
      have hvert : |205 / 2 - (205 / 2 + 290 * (N : Rat))| = 290 * (N : Rat) := by
        rw [abs_of_nonpos (by linarith)]; ring
      have a1 := le_abs_self (350 - q.x)
      have a2 := neg_abs_le (350 - q.x)
      have a3 := le_abs_self (q.x - 430)
      have a4 := neg_abs_le (q.x - 430)
      constructor <;> linarith
    have hint : ∀ q ∈ (⟨350, 205 / 2⟩ : Point) :: ps, (∃ i : Int, q.x = i) ∧ ∃ i : Int, clamp 103 (102 + 290 * (N : Rat)) q.y = i := by
      intro q hq
      obtain ⟨i, hi⟩ := List.getElem?_of_mem hq
      obtain ⟨hil, hie⟩ := List.getElem?_eq_some_iff.mp hi
      obtain ⟨hlen, hg⟩ := List.forall₂_iff_get.mp hf.2
      obtain ⟨n, hn, hnl⟩ := hg i (hlen ▸ hil) hil
      simp only [List.get_eq_getElem] at hn hnl
      rw [hie] at hnl
      have hn := List.mem_of_getElem? hn
      obtain ⟨b1, b2⟩ := hbox q hq
      rw [← hnl] at b1 b2 ⊢
      constructor
      · obtain ⟨i, -, ⟨-, hi⟩ | ⟨-, ⟨-, hi⟩ | hi | ⟨-, hi⟩⟩⟩ := place_x (ok N) hn
        · exact ⟨10 + 380 * i, by rw [hi]; push_cast; ring⟩
        · exact ⟨50 + 380 * i, by rw [hi]; push_cast; ring⟩
        · exact ⟨200 + 380 * i, by rw [hi]; push_cast; ring⟩
        · exact ⟨350 + 380 * i, by rw [hi]; push_cast; ring⟩
      · unfold clamp
        rcases narrow hn b1 b2 with hy | hy | ⟨i, hy⟩
        · rw [hy, max_eq_left (by rw [min_le_iff]; right; norm_num)]
          exact ⟨103, by norm_num⟩
        · rw [hy, min_eq_left (by linarith)]
          rcases le_total (103 : Rat) (102 + 290 * (N : Rat)) with h | h
          · rw [max_eq_right h]; exact ⟨102 + 290 * N, by push_cast; ring⟩
          · rw [max_eq_left h]; exact ⟨103, by norm_num⟩
        · rw [hy]
          refine ⟨max 103 (min (102 + 290 * (N : Int)) i), ?_⟩
          push_cast
          rfl
    have hc := clamp_cost 103 (102 + 290 * (N : Rat)) _ _ _ hz hint
    have e1 : clamp 103 (102 + 290 * (N : Rat)) (205 / 2) = 103 := by
      unfold clamp
      exact max_eq_left (by rw [min_le_iff]; right; norm_num)
    have e2 : 102 + 290 * (N : Rat) ≤ clamp 103 (102 + 290 * (N : Rat)) (205 / 2 + 290 * (N : Rat)) := by
      unfold clamp
      rw [min_eq_left (by linarith)]
      exact le_max_right _ _
    simp only [e1] at hc
    have a1 := le_abs_self (clamp 103 (102 + 290 * (N : Rat)) (205 / 2 + 290 * (N : Rat)) - 103)
    have a2 : |(430 : Rat) - 350| = 80 := by norm_num
    rw [a2] at hc
    linarith

/-- With 129 rows or more, a route of least cost is longer than the direct one. -/
theorem not_shortest (hN : 128 ≤ N) {ps : List Point}
    (h : ShortestRoute (lines N) (conns N) (.column 0 0, .column (3 * N + 1) 0) ps) :
    ∃ ps', IsRoute (lines N) (conns N) (.column 0 0, .column (3 * N + 1) 0) ps' ∧ pathLength ps' < pathLength ps := by
  obtain ⟨pd, hd, hdl⟩ := direct (N := N) (by omega)
  obtain ⟨pc, hc, hcl⟩ := cheap (N := N) (by omega)
  refine ⟨pd, hd, ?_⟩
  by_contra hle
  push Not at hle
  have h1 := dear h.1 (by rw [← hdl]; exact hle)
  have h2 := h.2.1 pc hc
  have h3 : 79 + 290 * (N : Int) ≤ routeCost ps := by exact_mod_cast h1
  omega

end

end Long

end Grid
end Seiren
