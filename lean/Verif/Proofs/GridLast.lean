import Verif.Props.Grid
namespace Seiren.Grid
open Spec

/-! # Columns of tables without whole tables as ends

If no relation ends at a whole table of a column of tables, then only lower ends lie above and below the middles of these
tables, those of last columns.  Roads down may then pass through tables at whose lower side relations end.  Still, a shortest
route does not turn back at such a road. -/

section
variable {ns : List Nat} {cs : List (NodeRef × NodeRef)}

local notation "ES" => allEnds ns cs
local notation "PL" => places ns (allEnds ns cs)

/-- No relation ends at the upper side of a table in the `c`-th column of tables. -/
def NoUp (ns : List Nat) (cs : List (NodeRef × NodeRef)) (c : Nat) : Prop :=
  ∀ y, (⟨200 + 380 * (c : Rat), y⟩, .up) ∉ allEnds ns cs

theorem nup_cases (h : Ok ns cs) {c : Nat} (hu : NoUp ns cs c) {n : RouteNodeData} (hn : n ∈ PL)
    (hx : n.location.x = 200 + 380 * (c : Rat)) :
    (n.orientation = none ∧ ¬ CloseToTable ns n.location ∧ ∃ j ∈ corners ns, n.location.y = j.y) ∨
    (∃ r m, Tab ns c r m ∧ n.orientation = some .down ∧ n.location = ⟨200 + 380 * (c : Rat), rowTop ns r + 35 * (m : Rat)⟩ ∧
      (⟨200 + 380 * (c : Rat), rowTop ns r + 35 * (m : Rat)⟩, .down) ∈ ES) := by
  rcases col_cases h hn hx with h1 | ⟨r, m, hm, -, -, h1⟩ | h1
  · exact .inl h1
  · exact absurd h1 (hu _)
  · exact .inr h1

theorem nup_open (h : Ok ns cs) {c : Nat} (hu : NoUp ns cs c) {n : RouteNodeData} (hn : n ∈ PL)
    (hx : n.location.x = 200 + 380 * (c : Rat)) : Open .down n := by
  rcases nup_cases h hu hn hx with h1 | ⟨r, m, hm, h1, -⟩
  · exact .inl h1.1
  · exact .inr h1

theorem nup_none (h : Ok ns cs) {c : Nat} (hu : NoUp ns cs c) {n : RouteNodeData} (hn : n ∈ PL)
    (hx : n.location.x = 200 + 380 * (c : Rat)) (ho : Open .up n) : n.orientation = none := by
  rcases nup_cases h hu hn hx with h1 | ⟨r, m, hm, h1, -⟩
  · exact h1.1
  · exact (not_open ho h1 (by simp)).elim

theorem nup_same (h : Ok ns cs) {c : Nat} (hu : NoUp ns cs c) {n n' : RouteNodeData} (hn : n ∈ PL) (hn' : n' ∈ PL)
    (hx : n.location.x = 200 + 380 * (c : Rat)) (hx' : n'.location.x = 200 + 380 * (c : Rat)) (hy : n.location.y = n'.location.y) :
    n = n' :=
  col_unique h hn hn' hx (point_eq (hx'.trans hx.symm) hy.symm) (nup_open h hu hn hx) (nup_open h hu hn' hx')

/-! ## Heights -/

theorem rowTop_int (ns : List Nat) (r : Nat) : ∃ i : Int, rowTop ns r = i := by
  induction r with
  | zero => exact ⟨50, by norm_num [rowTop]⟩
  | succ r ih =>
    obtain ⟨i, hi⟩ := ih
    refine ⟨i + 35 * (tallest ns r : Int) + 80, ?_⟩
    simp only [rowTop, hi]
    push_cast
    ring

theorem corner_int {j : Point} (hj : j ∈ corners ns) : ∃ i : Int, j.y = i := by
  obtain ⟨c, r, m, -, -, hy⟩ := mem_corners.mp hj
  obtain ⟨i, hi⟩ := rowTop_int ns r
  rcases hy with hy | hy <;> rw [hy, hi]
  · exact ⟨i - 40, by push_cast; ring⟩
  · exact ⟨i + 35 * (m : Int) + 40, by push_cast; ring⟩

theorem mid_int (h : Ok ns cs) {c : Nat} {n : RouteNodeData} (hn : n ∈ PL) (hx : n.location.x = 200 + 380 * (c : Rat)) :
    ∃ i : Int, n.location.y = i := by
  rcases col_cases h hn hx with ⟨-, -, j, hj, hy⟩ | ⟨r, m, hm, -, hl, -⟩ | ⟨r, m, hm, -, hl, -⟩
  · rw [hy]; exact corner_int hj
  · rw [hl]; exact rowTop_int ns r
  · obtain ⟨i, hi⟩ := rowTop_int ns r
    rw [hl]
    exact ⟨i + 35 * (m : Int), by simp only; rw [hi]; push_cast; ring⟩

/-- The cost of a road along the middle of a column is its length. -/
theorem mid_cost (h : Ok ns cs) {c : Nat} {n m : RouteNodeData} (hn : n ∈ PL) (hm : m ∈ PL) (hx : n.location.x = 200 + 380 * (c : Rat))
    (hx' : m.location.x = 200 + 380 * (c : Rat)) (hle : n.location.y ≤ m.location.y) :
    (segmentCost n.location m.location : Rat) = m.location.y - n.location.y := by
  obtain ⟨i, hi⟩ := mid_int h hn hx
  obtain ⟨j, hj⟩ := mid_int h hm hx'
  unfold segmentCost
  rw [hx, hx', sub_self, abs_zero, zero_add, abs_of_nonneg (by linarith), hi, hj]
  have : ((j : Rat) - (i : Rat)) = ((j - i : Int) : Rat) := by push_cast; ring
  rw [this, Rat.floor_intCast]

theorem cost_le (p q : Point) : (segmentCost p q : Rat) ≤ |q.x - p.x| + |q.y - p.y| := Rat.floor_le _

theorem row_cost {p q : Point} (hy : q.y = p.y) {d : Int} (hd : |q.x - p.x| = d) : segmentCost p q = d := by
  unfold segmentCost
  rw [hy, sub_self, abs_zero, add_zero, hd, Rat.floor_intCast]

/-- A place above a table is at least 40 above it. -/
theorem gap_above (h : Ok ns cs) {c : Nat} (hu : NoUp ns cs c) {n : RouteNodeData} (hn : n ∈ PL)
    (hx : n.location.x = 200 + 380 * (c : Rat)) {r m : Nat} (hm : Tab ns c r m) (hle : n.location.y ≤ rowTop ns r) :
    n.location.y ≤ rowTop ns r - 40 := by
  have h1 := h.one hm
  rcases nup_cases h hu hn hx with ⟨-, hc, -⟩ | ⟨r', m', hm', -, hl, -⟩
  · by_contra hlt
    push Not at hlt
    have hs : Step (rowTop ns r - 40) := by
      obtain ⟨i, hi⟩ := rowTop_step ns r
      exact ⟨i - 16, by rw [hi]; push_cast; ring⟩
    have := hs.apart (place_step h hn) hlt
    apply hc
    refine ⟨_, hm.mem, ?_⟩
    simp only
    refine ⟨by linarith, by linarith, by linarith, by linarith⟩
  · have h2 := h.one hm'
    have hl : n.location.y = rowTop ns r' + 35 * (m' : Rat) := by rw [hl]
    rcases Nat.lt_trichotomy r r' with hlt | rfl | hlt
    · have := hm.apart hlt; linarith
    · linarith
    · have := hm'.apart hlt; linarith

/-- A crossing below a table is at least 40 below it. -/
theorem gap_below (h : Ok ns cs) {c : Nat} {n : RouteNodeData} (hn : n ∈ PL) (hx : n.location.x = 200 + 380 * (c : Rat))
    (ho : n.orientation = none) {r m : Nat} (hm : Tab ns c r m) (hle : rowTop ns r + 35 * (m : Rat) ≤ n.location.y) :
    rowTop ns r + 35 * (m : Rat) + 40 ≤ n.location.y := by
  have h1 := h.one hm
  rcases col_cases h hn hx with ⟨-, hc, -⟩ | ⟨r', m', hm', ho', -⟩ | ⟨r', m', hm', ho', -⟩
  · by_contra hlt
    push Not at hlt
    have hs : Step (rowTop ns r + 35 * (m : Rat) + 40) := by
      obtain ⟨i, hi⟩ := bottom_step ns r m
      exact ⟨i + 16, by rw [hi]; push_cast; ring⟩
    have := (place_step h hn).apart hs hlt
    apply hc
    refine ⟨_, hm.mem, ?_⟩
    simp only
    refine ⟨by linarith, by linarith, by linarith, by linarith⟩
  · rw [ho] at ho'; cases ho'
  · rw [ho] at ho'; cases ho'

/-! ## Routes as lists of places -/

/-- The cost of going through places. -/
def pathCost : List RouteNodeData → Int
  | [] => 0
  | [_] => 0
  | a :: b :: l => segmentCost a.location b.location + pathCost (b :: l)

theorem pathCost_eq (l : List RouteNodeData) : pathCost l = routeCost (l.map (·.location)) := by
  induction l with
  | nil => rfl
  | cons a l ih =>
    cases l with
    | nil => rfl
    | cons b l => simp only [pathCost, List.map_cons, routeCost] at ih ⊢; rw [ih]

/-- Each place is joined to the next one. -/
def Chain (ns : List Nat) (pl : List RouteNodeData) (l : List RouteNodeData) : Prop :=
  ∀ l1 a b l2, l = l1 ++ a :: b :: l2 → RoadBetween ns pl a b

theorem Chain.suffix {pl l1 l2 : List RouteNodeData} (h : Chain ns pl (l1 ++ l2)) : Chain ns pl l2 :=
  fun m1 a b m2 he => h (l1 ++ m1) a b m2 (by rw [he, List.append_assoc])

theorem Chain.reverse {pl l : List RouteNodeData} (h : Chain ns pl l) : Chain ns pl l.reverse := by
  intro l1 a b l2 he
  refine (h l2.reverse b a l1.reverse ?_).symm
  have := congrArg List.reverse he
  simpa using this

theorem Chain.prefix {pl l1 l2 : List RouteNodeData} (h : Chain ns pl (l1 ++ l2)) : Chain ns pl l1 := by
  intro m1 a b m2 he
  exact h m1 a b (m2 ++ l2) (by rw [he]; simp)

theorem Chain.trip {pl : List RouteNodeData} : ∀ {l : List RouteNodeData} {a z : RouteNodeData}, Chain ns pl (a :: l) → a ∈ pl →
    (a :: l).getLast? = some z → Trip ns pl a z (pathCost (a :: l)) := by
  intro l
  induction l with
  | nil =>
    intro a z _ ha hz
    simp only [List.getLast?_singleton, Option.some.injEq] at hz
    subst hz
    exact .here ha
  | cons b l ih =>
    intro a z hc ha hz
    rw [List.getLast?_cons_cons] at hz
    have hr := hc [] a b l rfl
    exact .go hr (ih (hc.suffix (l1 := [a])) hr.symm.left hz)

theorem pathCost_append : ∀ (l1 : List RouteNodeData) (a : RouteNodeData) (l2 : List RouteNodeData),
    pathCost (l1 ++ a :: l2) = pathCost (l1 ++ [a]) + pathCost (a :: l2) := by
  intro l1 a l2
  induction l1 with
  | nil => simp [pathCost]
  | cons b l1 ih =>
    cases l1 with
    | nil => simp [pathCost]
    | cons c l1 =>
      simp only [List.cons_append, pathCost] at ih ⊢
      rw [ih]
      ring

theorem pathCost_reverse (l : List RouteNodeData) : pathCost l.reverse = pathCost l := by
  induction l with
  | nil => rfl
  | cons a l ih =>
    cases l with
    | nil => rfl
    | cons b l =>
      rw [List.reverse_cons, List.reverse_cons, List.append_assoc, List.singleton_append, pathCost_append, ← List.reverse_cons, ih]
      simp only [pathCost]
      rw [segmentCost_comm]
      ring

/-- A route leads through places. -/
theorem follows_chain {pl : List RouteNodeData} {w : List Nat} {ps : List Point} (h : Follows ns pl w ps) :
    ∃ l, Chain ns pl l ∧ l.map (·.location) = ps ∧ ∀ n ∈ l, n ∈ pl := by
  obtain ⟨h1, h2⟩ := h
  have key : ∃ l : List RouteNodeData, l.map (·.location) = ps ∧ (∀ n ∈ l, n ∈ pl) ∧
      ∀ (k : Nat) (n : RouteNodeData), l[k]? = some n → ∃ i : Nat, w[k]? = some i ∧ pl[i]? = some n := by
    clear h1
    induction h2 with
    | nil => exact ⟨[], rfl, by simp, by simp⟩
    | @cons i p w ps h3 _ ih =>
      obtain ⟨n, hn, rfl⟩ := h3
      obtain ⟨l, e1, e2, e3⟩ := ih
      refine ⟨n :: l, by simp [e1], ?_, ?_⟩
      · intro x hx
        rcases List.mem_cons.mp hx with rfl | hx
        · exact List.mem_of_getElem? hn
        · exact e2 x hx
      · intro k x hx
        cases k with
        | zero =>
          simp only [List.getElem?_cons_zero, Option.some.injEq] at hx
          subst hx
          exact ⟨i, rfl, hn⟩
        | succ k => exact e3 k x hx
  obtain ⟨l, e1, e2, e3⟩ := key
  refine ⟨l, ?_, e1, e2⟩
  intro l1 a b l2 he
  obtain ⟨i, hi, hia⟩ := e3 l1.length a (by rw [he]; simp)
  obtain ⟨j, hj, hjb⟩ := e3 (l1.length + 1) b (by rw [he]; simp)
  exact ⟨i, j, hia, hjb, h1 _ i j hi hj⟩

/-! ## The top of a column of places -/

theorem road_vertical {n m : RouteNodeData} (hr : RoadBetween ns PL n m) (hx : m.location.x = n.location.x)
    (hlt : n.location.y < m.location.y) : ∃ a b, (PL)[a]? = some n ∧ (PL)[b]? = some m ∧
      (NeighbourIn ns PL .down a b ∨ NeighbourIn ns PL .up b a) := by
  obtain ⟨a, b, ha, hb, d, hn | hn⟩ := hr
  · obtain ⟨ht, -⟩ := neighbour_ahead hn ha hb
    refine ⟨a, b, ha, hb, ?_⟩
    cases d
    · have := ht.2; linarith
    · exact .inl hn
    · have := ht.2; linarith
    · have := ht.2; linarith
  · obtain ⟨ht, -⟩ := neighbour_ahead hn hb ha
    refine ⟨a, b, ha, hb, ?_⟩
    cases d
    · exact .inr hn
    · have := ht.2; linarith
    · have := ht.2; linarith
    · have := ht.2; linarith

theorem road_open {n m : RouteNodeData} (hr : RoadBetween ns PL n m) (hx : m.location.x = n.location.x)
    (hlt : n.location.y < m.location.y) : Open .down n ∧ Open .up m := by
  obtain ⟨a, b, ha, hb, hd | hd⟩ := road_vertical hr hx hlt
  · exact (neighbour_ahead hd ha hb).2
  · exact (neighbour_ahead hd hb ha).2.symm

/-- From a place above the first place ahead in the list, the way down leads to it. -/
theorem chain_down (h : Ok ns cs) {c : Nat} (hu : NoUp ns cs c) {m n : RouteNodeData} {b : Nat} (hb : (PL)[b]? = some n)
    (hm : m ∈ PL) (hmx : m.location.x = 200 + 380 * (c : Rat)) (hnx : n.location.x = 200 + 380 * (c : Rat)) (hno : Open .up n)
    (hfirst : ∀ i k, (PL)[i]? = some k → Ahead .down m k → b ≤ i) : ∀ (N : Nat) (o : RouteNodeData), o ∈ PL →
      o.location.x = 200 + 380 * (c : Rat) → m.location.y ≤ o.location.y → o.location.y < n.location.y →
      ((PL).filter fun p => p.location.x = 200 + 380 * (c : Rat) ∧ o.location.y < p.location.y).length ≤ N →
      ∃ k, Trip ns PL o n k ∧ k ≤ segmentCost o.location n.location := by
  have hnm := List.mem_of_getElem? hb
  intro N
  induction N with
  | zero =>
    intro o ho hox hmo hon hN
    have : n ∈ (PL).filter fun p => p.location.x = 200 + 380 * (c : Rat) ∧ o.location.y < p.location.y :=
      List.mem_filter.mpr ⟨hnm, by simp [hnx, hon]⟩
    rw [List.eq_nil_of_length_eq_zero (Nat.le_zero.mp hN)] at this
    cases this
  | succ N ih =>
    intro o ho hox hmo hon hN
    obtain ⟨a, ha⟩ := List.getElem?_of_mem ho
    have hah : Ahead .down o n := ⟨⟨hnx.trans hox.symm, hon⟩, nup_open h hu ho hox, hno⟩
    obtain ⟨j, p, hj, hnb⟩ := neighbour_exists (ns := ns) ha hnm hah
    have hpm := List.mem_of_getElem? hj
    obtain ⟨⟨hpx, hpy⟩, -, hpo⟩ := neighbour_ahead hnb ha hj
    have hpx' := hpx.trans hox
    have hroad : RoadBetween ns PL o p := ⟨a, j, ha, hj, .down, .inl hnb⟩
    have hle : distance o.location p.location ≤ distance o.location n.location := by
      obtain ⟨o', p', ho', hp', -, hmin⟩ := id hnb
      rw [ha] at ho'
      cases ho'
      rw [hj] at hp'
      cases hp'
      refine hmin b n hb ⟨n, hb, hah, .inr ?_⟩
      rintro i k hk ⟨⟨kx, ky⟩, -, ko⟩
      exact hfirst i k hk ⟨⟨kx.trans (hox.trans hmx.symm), lt_of_le_of_lt hmo ky⟩, nup_open h hu hm hmx, ko⟩
    simp only [distance, hpx', hnx, hox, sub_self, abs_zero, zero_add] at hle
    rw [abs_of_neg (by linarith), abs_of_neg (by linarith)] at hle
    rcases eq_or_lt_of_le (by linarith : p.location.y ≤ n.location.y) with heq | hlt
    · obtain rfl := nup_same h hu hpm hnm hpx' hnx heq
      exact ⟨_, Trip.one hroad, le_refl _⟩
    · obtain ⟨k, hk, hkl⟩ := ih p hpm hpx' (hmo.trans hpy.le) hlt (by
        have hsub : ((PL).filter fun q => q.location.x = 200 + 380 * (c : Rat) ∧ p.location.y < q.location.y).length <
            ((PL).filter fun q => q.location.x = 200 + 380 * (c : Rat) ∧ o.location.y < q.location.y).length := by
          have e : (PL).filter (fun q => q.location.x = 200 + 380 * (c : Rat) ∧ p.location.y < q.location.y) =
              ((PL).filter fun q => q.location.x = 200 + 380 * (c : Rat) ∧ o.location.y < q.location.y).filter
                fun q => decide (p.location.y < q.location.y) := by
            rw [List.filter_filter]
            apply List.filter_congr
            intro q _
            simp only [Bool.decide_and, ← Bool.and_assoc]
            by_cases h1 : p.location.y < q.location.y
            · have h2 : o.location.y < q.location.y := lt_trans hpy h1
              simp [h1, h2]
            · simp [h1]
          rw [e]
          have hmf : p ∈ (PL).filter fun q => q.location.x = 200 + 380 * (c : Rat) ∧ o.location.y < q.location.y :=
            List.mem_filter.mpr ⟨hpm, by simp [hpy, hpx']⟩
          exact List.length_filter_lt_length_iff_exists.mpr ⟨_, hmf, by simp⟩
        omega)
      refine ⟨_, .go hroad hk, ?_⟩
      have := segmentCost_add (p := o.location) (q := p.location) (r := n.location) (hpx'.trans hox.symm) (hnx.trans hox.symm) hpy hlt
      omega

/-- Below a place, one gets from a neighbour to another one without passing it. -/
theorem top_turn (h : Ok ns cs) {c : Nat} (hu : NoUp ns cs c) {n m o : RouteNodeData} (h1 : RoadBetween ns PL m n)
    (h2 : RoadBetween ns PL m o) (hx : m.location.x = 200 + 380 * (c : Rat)) (hn : n.location.x = m.location.x)
    (ho : o.location.x = m.location.x) (hmn : m.location.y < n.location.y) (hmo : m.location.y < o.location.y) :
    ∃ k, Trip ns PL n o k ∧ k < segmentCost n.location m.location + segmentCost m.location o.location := by
  have key : ∀ {n o : RouteNodeData}, RoadBetween ns PL m n → RoadBetween ns PL m o → n.location.x = m.location.x →
      o.location.x = m.location.x → m.location.y < o.location.y → o.location.y < n.location.y →
      ∃ k, Trip ns PL o n k ∧ k < segmentCost n.location m.location + segmentCost m.location o.location := by
    intro n o h1 h2 hn ho hmo hon
    have hmm := h1.left
    have hnm := h1.symm.left
    have hom := h2.symm.left
    have hno := (road_open h1 hn (hmo.trans hon)).2
    have hod := nup_open h hu hom (ho.trans hx)
    have hfin : ∀ {k : Int}, k ≤ segmentCost o.location n.location →
        k < segmentCost n.location m.location + segmentCost m.location o.location := by
      intro k hk
      have e1 := segmentCost_add (p := m.location) (q := o.location) (r := n.location) ho hn hmo hon
      have e2 := col_cost (p := m.location) (q := o.location) ho ((place_step h hmm).apart (place_step h hom) hmo)
      rw [segmentCost_comm n.location m.location]
      omega
    by_cases hcl : Clear ns cs c m.location.y n.location.y
    · obtain ⟨k, hk, hkl⟩ := column_trip h hom (ho.trans hx) hod hnm (hn.trans hx) hno hon (hcl.mono hmo.le (le_refl _))
      rw [segmentCost_comm] at hkl
      exact ⟨k, hk.symm, hfin hkl⟩
    · obtain ⟨a, b, ha, hb, hd | hd⟩ := road_vertical h1 hn (hmo.trans hon)
      · unfold Clear at hcl
        push Not at hcl
        obtain ⟨r, w, hw, hw1, hw2, -⟩ := hcl
        have hob : Obstructed ns .down m.location n.location :=
          ⟨by simp, _, hw.mem, between_meets h hw hx (hn.trans hx) hw1 hw2⟩
        obtain ⟨k, hk, hkl⟩ := chain_down h hu hb hmm hx (hn.trans hx) hno (eligible_first hd ha hb hob) _ o hom (ho.trans hx)
          hmo.le hon (le_refl _)
        exact ⟨k, hk, hfin hkl⟩
      · exact absurd (clear_up h hd hb ha (hn.trans hx)) hcl
  rcases lt_trichotomy n.location.y o.location.y with hlt | heq | hgt
  · obtain ⟨k, hk, hkl⟩ := key h2 h1 ho hn hmn hlt
    refine ⟨k, hk, ?_⟩
    rw [segmentCost_comm n.location, segmentCost_comm m.location o.location]
    omega
  · obtain rfl := nup_same h hu h1.symm.left h2.symm.left (hn.trans hx) (ho.trans hx) heq
    refine ⟨0, .here h1.symm.left, ?_⟩
    have e2 := col_cost (p := m.location) (q := n.location) ho ((place_step h h1.left).apart (place_step h h2.symm.left) hmo)
    have := segmentCost_nonneg n.location m.location
    omega
  · obtain ⟨k, hk, hkl⟩ := key h1 h2 hn ho hmo hgt
    exact ⟨k, hk.symm, hkl⟩

/-- Nowhere does the route come up and go down again within the column. -/
def NoTop (c : Nat) (l : List RouteNodeData) : Prop :=
  ∀ l1 a b d l2, l = l1 ++ a :: b :: d :: l2 → b.location.x = 200 + 380 * (c : Rat) → a.location.x = b.location.x →
    d.location.x = b.location.x → ¬ (b.location.y < a.location.y ∧ b.location.y < d.location.y)

theorem NoTop.suffix {c : Nat} {l1 l2 : List RouteNodeData} (h : NoTop c (l1 ++ l2)) : NoTop c l2 :=
  fun m1 a b d m2 he => h (l1 ++ m1) a b d m2 (by rw [he, List.append_assoc])

theorem NoTop.reverse {c : Nat} {l : List RouteNodeData} (h : NoTop c l) : NoTop c l.reverse := by
  intro l1 a b d l2 he hb ha hd hlt
  refine h l2.reverse d b a l1.reverse ?_ hb hd ha hlt.symm
  have := congrArg List.reverse he
  simpa using this

/-- What is known about a route from `m` that begins upwards: it reaches the place `p`, where it ends or leaves the column.
It passes any other crossing of the column in between, or skips it by a road. -/
structure Rise (ns : List Nat) (cs : List (NodeRef × NodeRef)) (c : Nat) (m z : RouteNodeData) (k : Int) (p : RouteNodeData) (k' : Int) :
    Prop where
  mem : p ∈ places ns (allEnds ns cs)
  col : p.location.x = 200 + 380 * (c : Rat)
  above : p.location.y < m.location.y
  cost : (k : Rat) = m.location.y - p.location.y + k'
  leave : (p = z ∧ k' = 0) ∨ ∃ o k'', RoadBetween ns (places ns (allEnds ns cs)) p o ∧ o.location.x ≠ p.location.x ∧
    Trip ns (places ns (allEnds ns cs)) o z k'' ∧ k' = segmentCost p.location o.location + k''
  between : ∀ q ∈ places ns (allEnds ns cs), q.location.x = 200 + 380 * (c : Rat) → p.location.y < q.location.y →
    q.location.y < m.location.y →
    (∃ k1 : Int, Trip ns (places ns (allEnds ns cs)) q z k1 ∧ (k : Rat) = m.location.y - q.location.y + k1) ∨
    ∃ a b, RoadBetween ns (places ns (allEnds ns cs)) a b ∧ a.location.x = 200 + 380 * (c : Rat) ∧
      b.location.x = 200 + 380 * (c : Rat) ∧ a.location.y < q.location.y ∧ q.location.y < b.location.y

theorem Rise.trip {c : Nat} {m z : RouteNodeData} {k : Int} {p : RouteNodeData} {k' : Int} (h : Rise ns cs c m z k p k') :
    Trip ns PL p z k' := by
  rcases h.leave with ⟨rfl, rfl⟩ | ⟨o, k'', h1, -, h2, rfl⟩
  · exact .here h.mem
  · exact .go h1 h2

theorem rise_of_chain (h : Ok ns cs) {c : Nat} (hu : NoUp ns cs c) : ∀ {l : List RouteNodeData} {m o z : RouteNodeData},
    Chain ns PL (m :: o :: l) → NoTop c (m :: o :: l) → m.location.x = 200 + 380 * (c : Rat) → o.location.x = m.location.x →
    o.location.y < m.location.y → (m :: o :: l).getLast? = some z → ∃ p k', Rise ns cs c m z (pathCost (m :: o :: l)) p k' := by
  intro l
  induction l with
  | nil =>
    intro m o z hc _ hx ho hlt hz
    simp only [List.getLast?_cons_cons, List.getLast?_singleton, Option.some.injEq] at hz
    subst hz
    have hr := hc [] m o [] rfl
    have e := mid_cost h hr.symm.left hr.left (ho.trans hx) hx hlt.le
    refine ⟨o, 0, hr.symm.left, ho.trans hx, hlt, ?_, .inl ⟨rfl, rfl⟩, ?_⟩
    · simp only [pathCost]
      rw [segmentCost_comm]
      push_cast
      linarith
    · intro q _ hq h1 h2
      exact .inr ⟨o, m, hr.symm, ho.trans hx, hx, h1, h2⟩
  | cons d l ih =>
    intro m o z hc hnt hx ho hlt hz
    have hr := hc [] m o (d :: l) rfl
    have hr' := hc [m] o d l rfl
    have e := mid_cost h hr.symm.left hr.left (ho.trans hx) hx hlt.le
    have hc' : Chain ns PL (o :: d :: l) := hc.suffix (l1 := [m])
    rw [List.getLast?_cons_cons] at hz
    by_cases hd : d.location.x = o.location.x
    · have hdy : d.location.y < o.location.y := by
        rcases lt_trichotomy d.location.y o.location.y with h1 | h1 | h1
        · exact h1
        · exact absurd h1.symm (road_apart hr' hd.symm)
        · exact absurd ⟨hlt, h1⟩ (hnt [] m o d l rfl (ho.trans hx) ho.symm hd)
      obtain ⟨p, k', hR⟩ := ih hc' (hnt.suffix (l1 := [m])) (ho.trans hx) hd hdy hz
      refine ⟨p, k', hR.mem, hR.col, hR.above.trans hlt, ?_, hR.leave, ?_⟩
      · have := hR.cost
        rw [pathCost, segmentCost_comm]
        push_cast
        linarith
      · intro q hq hqx h1 h2
        rcases lt_trichotomy q.location.y o.location.y with h3 | h3 | h3
        · rcases hR.between q hq hqx h1 h3 with ⟨k1, t1, e1⟩ | h4
          · refine .inl ⟨k1, t1, ?_⟩
            rw [pathCost, segmentCost_comm]
            push_cast
            linarith
          · exact .inr h4
        · obtain rfl := nup_same h hu hq hr.symm.left hqx (ho.trans hx) h3
          refine .inl ⟨_, hc'.trip hq hz, ?_⟩
          rw [pathCost, segmentCost_comm]
          push_cast
          linarith
        · exact .inr ⟨o, m, hr.symm, ho.trans hx, hx, h3, h2⟩
    · refine ⟨o, pathCost (o :: d :: l), hr.symm.left, ho.trans hx, hlt, ?_, .inr ⟨d, pathCost (d :: l), hr', hd, ?_, rfl⟩, ?_⟩
      · rw [pathCost, segmentCost_comm]
        push_cast
        linarith
      · rw [List.getLast?_cons_cons] at hz
        exact (hc'.suffix (l1 := [o])).trip hr'.symm.left hz
      · intro q _ hq h1 h2
        exact .inr ⟨o, m, hr.symm, ho.trans hx, hx, h1, h2⟩

end

end Seiren.Grid
