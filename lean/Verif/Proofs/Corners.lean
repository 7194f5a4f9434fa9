import Verif.Props.Grid
import Verif.Proofs.GridLast
/-! # How far apart the points of a path are

The heights of places in one row of tables, from the top of the row: 40 above it, 40 below a table, and the ends of relations
at the left and right sides, which are at multiples of 17.5.  All other heights and all horizontal positions are further apart. -/

namespace Seiren.Grid
open Spec

section
variable {ns : List Nat} {cs : List (NodeRef × NodeRef)}

local notation "ES" => allEnds ns cs
local notation "PL" => places ns (allEnds ns cs)

/-- No relation ends at a whole table with an even number of lines. -/
def OddTables (ns : List Nat) (cs : List (NodeRef × NodeRef)) : Prop :=
  ∀ c ∈ cs, ∀ k n, c.1 = .table k ∨ c.2 = .table k → ns[k]? = some n → n % 2 = 1

/-- A height in row `r` other than of upper and lower ends: in steps of 2.5 from the top of the row. -/
def RowY (ns : List Nat) (odd : Prop) (r : Nat) (y : Rat) : Prop :=
  ∃ u : Int, y = rowTop ns r + 5 / 2 * (u : Rat) ∧
    (u = -16 ∨ (∃ m : Nat, m ≤ tallest ns r ∧ u = 14 * (m : Int) + 16) ∨
      ∃ i : Nat, 0 < i ∧ i < 2 * tallest ns r ∧ u = 7 * (i : Int) ∧ (odd → i % 2 = 1))

/-- The ends at the left and right sides. -/
theorem side_rowY (h : Ok ns cs) {p : Point} {o : Orientation} (ho : o = .left ∨ o = .right) (hp : (p, o) ∈ ES) :
    ∃ r, RowY ns (OddTables ns cs) r p.y := by
  simp only [allEnds, List.mem_flatMap, List.mem_append] at hp
  have key : ∀ e, ValidRef ns e → (∀ k n, e = .table k → ns[k]? = some n → OddTables ns cs → n % 2 = 1) → (p, o) ∈ endsOf ns e →
      ∃ r, RowY ns (OddTables ns cs) r p.y := by
    intro e hv hodd hpe
    simp only [endsOf, List.mem_map, Prod.mk.injEq] at hpe
    obtain ⟨o', -, rfl, rfl⟩ := hpe
    cases e with
    | table k =>
      obtain ⟨n, hn⟩ := hv
      have h1 := (tab_of hn).le
      have h2 := h.pos k n hn
      refine ⟨k / 3, 7 * (n : Int), ?_, .inr (.inr ⟨n, by omega, by omega, rfl, hodd k n rfl hn⟩)⟩
      rcases ho with rfl | rfl <;> simp only [refRect, hn, Option.getD_some, tableRect, sideMiddle] <;> push_cast <;> ring
    | column k j =>
      obtain ⟨n, hn, hj⟩ := hv
      have h1 := (tab_of hn).le
      refine ⟨k / 3, 7 * ((2 * j + 3 : Nat) : Int), ?_, .inr (.inr ⟨2 * j + 3, by omega, by omega, rfl, fun _ => by omega⟩)⟩
      rcases ho with rfl | rfl <;> simp only [refRect, lineRect, sideMiddle] <;> push_cast <;> ring
  obtain ⟨c, hc, hp | hp⟩ := hp
  · exact key _ (h.valid c hc).1 (fun k n he hk hodd => hodd c hc k n (.inl he) hk) hp
  · exact key _ (h.valid c hc).2 (fun k n he hk hodd => hodd c hc k n (.inr he) hk) hp

theorem corner_rowY {odd : Prop} {j : Point} (hj : j ∈ corners ns) : ∃ r, RowY ns odd r j.y := by
  obtain ⟨c, r, m, hm, -, hy⟩ := mem_corners.mp hj
  rcases hy with hy | hy
  · exact ⟨r, -16, by rw [hy]; push_cast; ring, .inl rfl⟩
  · exact ⟨r, 14 * (m : Int) + 16, by rw [hy]; push_cast; ring, .inr (.inl ⟨m, hm.le, rfl⟩)⟩

/-- Heights in one row. -/
theorem rowY_same {odd : Prop} {r : Nat} {y y' : Rat} (h : RowY ns odd r y) (h' : RowY ns odd r y') (hlt : y < y') :
    (¬ odd ∧ y' = y + 5) ∨ y + 25 / 2 ≤ y' := by
  obtain ⟨u, rfl, hu⟩ := h
  obtain ⟨u', rfl, hu'⟩ := h'
  have hlt : (u : Rat) < u' := by linarith
  have hlt : u < u' := by exact_mod_cast hlt
  have : (¬ odd ∧ u' = u + 2) ∨ u + 5 ≤ u' := by
    by_cases ho : odd
    · right
      rcases hu with hu | ⟨m, -, hu⟩ | ⟨i, h1, h2, hu, h3⟩ <;> rcases hu' with hu' | ⟨m', -, hu'⟩ | ⟨i', h1', h2', hu', h3'⟩ <;>
        (try have h3 := h3 ho) <;> (try have h3' := h3' ho) <;> omega
    · simp only [ho, not_false_eq_true, true_and]
      rcases hu with hu | ⟨m, -, hu⟩ | ⟨i, h1, h2, hu, -⟩ <;> rcases hu' with hu' | ⟨m', -, hu'⟩ | ⟨i', h1', h2', hu', -⟩ <;> omega
  rcases this with ⟨ho, this⟩ | this
  · exact .inl ⟨ho, by rw [this]; push_cast; ring⟩
  · right
    have : (u : Rat) + 5 ≤ u' := by exact_mod_cast this
    linarith

theorem rowY_ge {odd : Prop} {r : Nat} {y : Rat} (h : RowY ns odd r y) : rowTop ns r - 40 ≤ y := by
  obtain ⟨u, rfl, hu⟩ := h
  have : -16 ≤ u := by rcases hu with hu | ⟨m, -, hu⟩ | ⟨i, h1, h2, hu, -⟩ <;> omega
  have : (-16 : Rat) ≤ u := by exact_mod_cast this
  linarith

theorem rowY_le {odd : Prop} {r : Nat} {y : Rat} (h : RowY ns odd r y) : y ≤ rowTop ns r + 35 * (tallest ns r : Rat) + 40 := by
  obtain ⟨u, rfl, hu⟩ := h
  have : u ≤ 14 * (tallest ns r : Int) + 16 := by rcases hu with hu | ⟨m, hm, hu⟩ | ⟨i, h1, h2, hu, -⟩ <;> omega
  have : (u : Rat) ≤ 14 * (tallest ns r : Rat) + 16 := by exact_mod_cast this
  linarith

theorem rowY_first {odd : Prop} (r : Nat) : RowY ns odd r (rowTop ns r - 40) := ⟨-16, by push_cast; ring, .inl rfl⟩

theorem rowY_last {odd : Prop} (r : Nat) : RowY ns odd r (rowTop ns r + 35 * (tallest ns r : Rat) + 40) :=
  ⟨14 * (tallest ns r : Int) + 16, by push_cast; ring, .inr (.inl ⟨_, le_refl _, rfl⟩)⟩

theorem rowY_above {odd : Prop} {r : Nat} {y : Rat} (h : RowY ns odd r y) (hlt : y < rowTop ns r + 35 * (tallest ns r : Rat) + 40) :
    y + 35 ≤ rowTop ns r + 35 * (tallest ns r : Rat) + 40 := by
  obtain ⟨u, rfl, hu⟩ := h
  have hlt : (u : Rat) < 14 * (tallest ns r : Rat) + 16 := by linarith
  have hlt : u < 14 * (tallest ns r : Int) + 16 := by exact_mod_cast hlt
  have : u + 14 ≤ 14 * (tallest ns r : Int) + 16 := by rcases hu with hu | ⟨m, hm, hu⟩ | ⟨i, h1, h2, hu, -⟩ <;> omega
  have : (u : Rat) + 14 ≤ 14 * (tallest ns r : Rat) + 16 := by exact_mod_cast this
  linarith

theorem rowY_below {odd : Prop} {r : Nat} {y : Rat} (h : RowY ns odd r y) (hlt : rowTop ns r - 40 < y) :
    rowTop ns r - 5 ≤ y := by
  obtain ⟨u, rfl, hu⟩ := h
  have hlt : (-16 : Rat) < u := by linarith
  have hlt : -16 < u := by exact_mod_cast hlt
  have : -2 ≤ u := by rcases hu with hu | ⟨m, hm, hu⟩ | ⟨i, h1, h2, hu, -⟩ <;> omega
  have : (-2 : Rat) ≤ u := by exact_mod_cast this
  linarith

/-- Heights in any rows. -/
theorem rowY_apart {odd : Prop} {r r' : Nat} {y y' : Rat} (h : RowY ns odd r y) (h' : RowY ns odd r' y') (hlt : y < y') :
    (¬ odd ∧ y' = y + 5) ∨ y + 25 / 2 ≤ y' := by
  rcases Nat.lt_trichotomy r r' with hr | rfl | hr
  · right
    have hz := rows_apart (ns := ns) hr
    have g1 := rowY_le h
    have g2 := rowY_ge h'
    rcases eq_or_lt_of_le g1 with e1 | e1
    · rcases eq_or_lt_of_le g2 with e2 | e2
      · -- two rows between which there is a third one
        rcases Nat.lt_or_ge (r + 1) r' with hr2 | hr2
        · have := rows_apart (ns := ns) hr2
          have h0 : (0 : Rat) ≤ tallest ns (r + 1) := by exact_mod_cast Nat.zero_le _
          simp only [rowTop] at this
          linarith
        · obtain rfl : r' = r + 1 := by omega
          simp only [rowTop] at e2
          linarith
      · linarith [rowY_below h' e2]
    · linarith [rowY_above h e1]
  · exact rowY_same h h' hlt
  · have hz := rows_apart (ns := ns) hr
    have g1 := rowY_ge h
    have g2 := rowY_le h'
    linarith

/-- The heights of places from which a way leads up or down. -/
theorem place_rowY (h : Ok ns cs) {n : RouteNodeData} (hn : n ∈ PL) (ho : Open .up n ∨ Open .down n) :
    (∃ r, RowY ns (OddTables ns cs) r n.location.y) ∨ ∃ c r m, Tab ns c r m ∧ n.orientation ≠ none ∧
      n.location.x = 200 + 380 * (c : Rat) ∧ (n.location.y = rowTop ns r ∨ n.location.y = rowTop ns r + 35 * (m : Rat)) := by
  rcases place_cases h hn with ⟨-, c, r, m, hm, hx, hy⟩ | ⟨-, c, r, m, hm, -, -, hs, -⟩ | ⟨-, -, c, r, m, hm, hx, ⟨j, hj, hy⟩, -⟩ |
      ⟨c, r, m, hm, he⟩
  · exact .inl (corner_rowY (j := n.location) (mem_corners.mpr ⟨c, r, m, hm, hx, hy⟩))
  · exact .inl (side_rowY (p := ⟨50 + 380 * (c : Rat), n.location.y⟩) h (.inl rfl) hs.1)
  · rw [hy]; exact .inl (corner_rowY hj)
  · rcases he with ⟨he, -⟩ | ⟨he, -⟩ | ⟨he, hl, -⟩ | ⟨he, hl, -⟩
    · rcases ho with ho | ho <;> rcases ho with ho | ho <;> rw [he] at ho <;> simp at ho
    · rcases ho with ho | ho <;> rcases ho with ho | ho <;> rw [he] at ho <;> simp at ho
    · exact .inr ⟨c, r, m, hm, by rw [he]; simp, by rw [hl], .inl (by rw [hl])⟩
    · exact .inr ⟨c, r, m, hm, by rw [he]; simp, by rw [hl], .inr (by rw [hl])⟩

/-- A crossing above or below an end is more than 39 away from it. -/
theorem end_apart (h : Ok ns cs) {n m : RouteNodeData} (hm : m ∈ PL) (hx : m.location.x = n.location.x) {c r w : Nat}
    (hk : Tab ns c r w) (hnx : n.location.x = 200 + 380 * (c : Rat))
    (hny : n.location.y = rowTop ns r ∨ n.location.y = rowTop ns r + 35 * (w : Rat)) (hne : m.location.y ≠ n.location.y) :
    n.location.y + 35 ≤ m.location.y ∨ m.location.y + 35 ≤ n.location.y := by
  have hw := h.one hk
  have street : ∀ i : Nat, 10 + 380 * (i : Rat) ≠ 200 + 380 * (c : Rat) := by
    intro i he
    have : (2 * i : Rat) = 2 * c + 1 := by linarith
    have : 2 * i = 2 * c + 1 := by exact_mod_cast this
    omega
  rcases place_cases h hm with ⟨-, c', r', m', hm', hx', -⟩ | ⟨-, c', r', m', hm', -, -, -, j, hj, hx', -⟩ | ⟨-, hclose, -⟩ |
      ⟨c', r', m', hm', he⟩
  · exfalso
    rcases hx' with hx' | hx'
    · exact street c' (by linarith)
    · exact street (c' + 1) (by push_cast; linarith)
  · obtain ⟨i, -, hi⟩ := street_x hj
    exact absurd (by linarith) (street i)
  · by_contra hno
    push Not at hno
    apply hclose
    refine ⟨_, hk.mem, ?_⟩
    simp only
    rcases hny with hny | hny
    · exact ⟨by linarith, by linarith, by linarith, by linarith⟩
    · exact ⟨by linarith, by linarith, by linarith, by linarith⟩
  · have hw' := h.one hm'
    have hcol : (m.location.x = 200 + 380 * (c' : Rat)) → c' = c := by
      intro e
      have : (c' : Rat) = c := by linarith
      exact_mod_cast this
    have off : ∀ {a : Rat}, m.location.x = a + 380 * (c' : Rat) → a = 50 ∨ a = 350 → False := by
      intro a ha h50
      have e : (c' : Rat) - c = (200 - a) / 380 := by
        rw [eq_div_iff (by norm_num)]; linarith
      rcases Nat.lt_trichotomy c' c with hlt | rfl | hlt
      · have : (c' : Rat) + 1 ≤ c := by exact_mod_cast hlt
        rcases h50 with rfl | rfl <;> norm_num at e <;> linarith
      · rcases h50 with rfl | rfl <;> norm_num at e
      · have : (c : Rat) + 1 ≤ c' := by exact_mod_cast hlt
        rcases h50 with rfl | rfl <;> norm_num at e <;> linarith
    have two : m.location.x = 200 + 380 * (c' : Rat) →
        (m.location.y = rowTop ns r' ∨ m.location.y = rowTop ns r' + 35 * (m' : Rat)) →
        n.location.y + 35 ≤ m.location.y ∨ m.location.y + 35 ≤ n.location.y := by
      intro e hy
      obtain rfl := hcol e
      rcases Nat.lt_trichotomy r r' with hlt | rfl | hlt
      · have := hk.apart hlt
        left
        rcases hny with hny | hny <;> rcases hy with hy | hy <;> linarith
      · obtain rfl := hk.unique hm'
        rcases hny with hny | hny <;> rcases hy with hy | hy
        · exact absurd (hy.trans hny.symm) hne
        · left; linarith
        · right; linarith
        · exact absurd (hy.trans hny.symm) hne
      · have := hm'.apart hlt
        right
        rcases hny with hny | hny <;> rcases hy with hy | hy <;> linarith
    rcases he with ⟨-, hx', -⟩ | ⟨-, hx', -⟩ | ⟨-, hl, -⟩ | ⟨-, hl, -⟩
    · exact (off hx' (.inl rfl)).elim
    · exact (off hx' (.inr rfl)).elim
    · exact two (by rw [hl]) (.inl (by rw [hl]))
    · exact two (by rw [hl]) (.inr (by rw [hl]))

/-- Places joined by a road up or down. -/
theorem road_up_apart (h : Ok ns cs) {n m : RouteNodeData} (hr : RoadBetween ns PL n m) (hx : m.location.x = n.location.x)
    (hlt : n.location.y < m.location.y) :
    (¬ OddTables ns cs ∧ m.location.y = n.location.y + 5) ∨ n.location.y + 25 / 2 ≤ m.location.y := by
  obtain ⟨ho, ho'⟩ := road_open hr hx hlt
  rcases place_rowY h hr.left (.inr ho) with ⟨r, hn⟩ | ⟨c, r, w, hk, -, h1, h2⟩
  · rcases place_rowY h hr.symm.left (.inl ho') with ⟨r', hm⟩ | ⟨c, r', w, hk, -, h1, h2⟩
    · exact rowY_apart hn hm hlt
    · rcases end_apart h hr.left hx.symm hk h1 h2 (ne_of_lt hlt) with h3 | h3
      · linarith
      · exact .inr (by linarith)
  · rcases end_apart h hr.symm.left hx hk h1 h2 (ne_of_gt hlt) with h3 | h3
    · exact .inr (by linarith)
    · linarith

/-- Horizontal positions of places. -/
theorem place_x_apart (h : Ok ns cs) {n m : RouteNodeData} (hn : n ∈ PL) (hm : m ∈ PL) (hlt : n.location.x < m.location.x) :
    n.location.x + 40 ≤ m.location.x := by
  have key : ∀ {a b : Int} {i j : Nat}, a = 1 ∨ a = 5 ∨ a = 20 ∨ a = 35 → b = 1 ∨ b = 5 ∨ b = 20 ∨ b = 35 →
      a + 38 * (i : Int) < b + 38 * (j : Int) → a + 38 * (i : Int) + 4 ≤ b + 38 * (j : Int) := by
    intro a b i j ha hb hab
    omega
  have pos : ∀ {k : RouteNodeData}, k ∈ PL → ∃ (a : Int) (i : Nat), (a = 1 ∨ a = 5 ∨ a = 20 ∨ a = 35) ∧
      k.location.x = 10 * ((a + 38 * (i : Int) : Int) : Rat) := by
    intro k hk
    obtain ⟨i, -, ⟨-, hi⟩ | ⟨-, ⟨-, hi⟩ | hi | ⟨-, hi⟩⟩⟩ := place_x h hk
    · exact ⟨1, i, by simp, by rw [hi]; push_cast; ring⟩
    · exact ⟨5, i, by simp, by rw [hi]; push_cast; ring⟩
    · exact ⟨20, i, by simp, by rw [hi]; push_cast; ring⟩
    · exact ⟨35, i, by simp, by rw [hi]; push_cast; ring⟩
  obtain ⟨a, i, ha, ea⟩ := pos hn
  obtain ⟨b, j, hb, eb⟩ := pos hm
  rw [ea, eb] at hlt ⊢
  have h1 : ((a + 38 * (i : Int) : Int) : Rat) < ((b + 38 * (j : Int) : Int) : Rat) := by linarith
  have h2 := key ha hb (by exact_mod_cast h1)
  have h3 : ((a + 38 * (i : Int) : Int) : Rat) + 4 ≤ ((b + 38 * (j : Int) : Int) : Rat) := by exact_mod_cast h2
  linarith

/-- Places joined by a road. -/
theorem road_length (h : Ok ns cs) {n m : RouteNodeData} (hr : RoadBetween ns PL n m) :
    (¬ OddTables ns cs ∧ n.location.x = m.location.x ∧ distance n.location m.location = 5) ∨
      25 / 2 ≤ distance n.location m.location ∧ (n.location.y = m.location.y → 40 ≤ distance n.location m.location) := by
  have horiz : ∀ {n m : RouteNodeData}, n ∈ PL → m ∈ PL → n.location.x < m.location.x → 40 ≤ distance n.location m.location := by
    intro n m hn hm hx
    unfold distance
    have h1 := place_x_apart h hn hm hx
    have h2' := neg_abs_le (n.location.x - m.location.x)
    have h3' := abs_nonneg (n.location.y - m.location.y)
    linarith
  have comm : distance m.location n.location = distance n.location m.location := by
    unfold distance; rw [abs_sub_comm m.location.x, abs_sub_comm m.location.y]
  have vert : ∀ {n m : RouteNodeData}, RoadBetween ns PL n m → n.location.x = m.location.x → n.location.y < m.location.y →
      (¬ OddTables ns cs ∧ distance n.location m.location = 5) ∨ 25 / 2 ≤ distance n.location m.location := by
    intro n m hr hx hy
    have e : distance n.location m.location = m.location.y - n.location.y := by
      unfold distance
      rw [hx, sub_self, abs_zero, abs_of_neg (by linarith)]
      ring
    rw [e]
    rcases road_up_apart h hr hx.symm hy with ⟨ho, h1⟩ | h1
    · exact .inl ⟨ho, by linarith⟩
    · exact .inr (by linarith)
  rcases lt_trichotomy n.location.x m.location.x with hx | hx | hx
  · have := horiz hr.left hr.symm.left hx
    exact .inr ⟨by linarith, fun _ => this⟩
  · have hne := road_apart hr hx
    rcases lt_or_gt_of_ne hne with hy | hy
    · rcases vert hr hx hy with ⟨ho, h1⟩ | h1
      · exact .inl ⟨ho, hx, h1⟩
      · exact .inr ⟨h1, fun e => absurd e hne⟩
    · rcases vert hr.symm hx.symm hy with ⟨ho, h1⟩ | h1
      · exact .inl ⟨ho, hx, comm ▸ h1⟩
      · exact .inr ⟨comm ▸ h1, fun e => absurd e hne⟩
  · have := horiz hr.symm.left hr.left hx
    rw [comm] at this
    exact .inr ⟨by linarith, fun _ => this⟩

/-- Consecutive points of a route. -/
theorem route_length (h : Ok ns cs) {c : NodeRef × NodeRef} {ps : List Point} (hs : IsRoute ns cs c ps) {k : Nat} {a b : Point}
    (ha : ps[k]? = some a) (hb : ps[k + 1]? = some b) :
    (¬ OddTables ns cs ∧ a.x = b.x ∧ distance a b = 5) ∨ 25 / 2 ≤ distance a b ∧ (a.y = b.y → 40 ≤ distance a b) := by
  obtain ⟨⟨w, hw, hf⟩, -⟩ := hs
  obtain ⟨hlen, hget⟩ := List.forall₂_iff_get.mp hf
  obtain ⟨hk, ea⟩ := List.getElem?_eq_some_iff.mp ha
  obtain ⟨hk', eb⟩ := List.getElem?_eq_some_iff.mp hb
  obtain ⟨n, hn, en⟩ := hget k (hlen ▸ hk) hk
  obtain ⟨m, hm, em⟩ := hget (k + 1) (hlen ▸ hk') hk'
  simp only [List.get_eq_getElem] at hn en hm em
  have hr := hw k _ _ (List.getElem?_eq_getElem (hlen ▸ hk)) (List.getElem?_eq_getElem (hlen ▸ hk'))
  have := road_length h (n := n) (m := m) ⟨_, _, hn, hm, hr⟩
  rw [en, em, ea, eb] at this
  exact this

end

end Seiren.Grid
