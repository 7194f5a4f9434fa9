import Verif.Proofs.Corners
import Verif.Spec.Clearance
/-! # How close paths come to tables -/

namespace Seiren.Grid
open Spec

/-! ## Points and segments beside a rectangle -/

theorem far_of {d : Rat} {r : Rect} {p : Point} (h : p.x + d ≤ r.origin.x ∨ r.origin.x + r.size.width + d ≤ p.x ∨
    p.y + d ≤ r.origin.y ∨ r.origin.y + r.size.height + d ≤ p.y) : FarFrom d r p := by
  rintro q ⟨h1, h2, h3, h4⟩
  rcases h with h | h | h | h
  · left; have := neg_abs_le (p.x - q.x); linarith
  · left; have := le_abs_self (p.x - q.x); linarith
  · right; have := neg_abs_le (p.y - q.y); linarith
  · right; have := le_abs_self (p.y - q.y); linarith

theorem clear_of {d : Rat} {r : Rect} {a b : Point}
    (h : (a.x + d ≤ r.origin.x ∧ b.x + d ≤ r.origin.x) ∨
      (r.origin.x + r.size.width + d ≤ a.x ∧ r.origin.x + r.size.width + d ≤ b.x) ∨
      (a.y + d ≤ r.origin.y ∧ b.y + d ≤ r.origin.y) ∨
      (r.origin.y + r.size.height + d ≤ a.y ∧ r.origin.y + r.size.height + d ≤ b.y)) : ClearOf d r a b := by
  intro t t0 t1
  apply far_of
  simp only [lerp]
  rcases h with ⟨h1, h2⟩ | ⟨h1, h2⟩ | ⟨h1, h2⟩ | ⟨h1, h2⟩
  · left; nlinarith
  · right; left; nlinarith
  · right; right; left; nlinarith
  · right; right; right; nlinarith

theorem clear_mono {d d' : Rat} {r : Rect} {a b : Point} (hd : d ≤ d') (h : ClearOf d' r a b) : ClearOf d r a b := by
  intro t t0 t1 q hq
  rcases h t t0 t1 q hq with h | h
  · left; linarith
  · right; linarith

theorem lerp_swap (a b : Point) (t : Rat) : lerp b a t = lerp a b (1 - t) := by
  simp only [lerp, Point.mk.injEq]
  constructor <;> ring

theorem clear_symm {d : Rat} {r : Rect} {a b : Point} (h : ClearOf d r a b) : ClearOf d r b a := by
  intro t t0 t1
  rw [lerp_swap]
  exact h _ (by linarith) (by linarith)

theorem crosses_symm {r : Rect} {a b : Point} (h : Crosses r a b) : Crosses r b a := by
  obtain ⟨t, t0, t1, ht⟩ := h
  refine ⟨1 - t, by linarith, by linarith, ?_⟩
  rw [lerp_swap, sub_sub_cancel]
  exact ht

theorem meets_symm {r : Rect} {a b : Point} (h : Meets r a b) : Meets r b a := by
  obtain ⟨t, t0, t1, ht⟩ := h
  refine ⟨1 - t, by linarith, by linarith, ?_⟩
  rw [lerp_swap, sub_sub_cancel]
  exact ht

/-- A horizontal segment reaches from the left of a rectangle to its right, or further. -/
theorem crosses_row {r : Rect} {a b : Point} (hy : b.y = a.y) (hlt : a.x < b.x) (h1 : a.x < r.origin.x + r.size.width)
    (h2 : r.origin.x < b.x) (h3 : r.origin.y < a.y) (h4 : a.y < r.origin.y + r.size.height) (hw : 0 < r.size.width) :
    Crosses r a b := by
  have hd : 0 < b.x - a.x := by linarith
  -- the middle of the common part
  obtain ⟨x, hx1, hx2, hx3, hx4⟩ : ∃ x, a.x ≤ x ∧ x ≤ b.x ∧ r.origin.x < x ∧ x < r.origin.x + r.size.width := by
    refine ⟨(max a.x r.origin.x + min b.x (r.origin.x + r.size.width)) / 2, ?_⟩
    have e1 := le_max_left a.x r.origin.x
    have e2 := le_max_right a.x r.origin.x
    have e3 := min_le_left b.x (r.origin.x + r.size.width)
    have e4 := min_le_right b.x (r.origin.x + r.size.width)
    have e5 : max a.x r.origin.x < min b.x (r.origin.x + r.size.width) := by
      rw [max_lt_iff, lt_min_iff, lt_min_iff]
      exact ⟨⟨hlt, h1⟩, h2, by linarith⟩
    refine ⟨?_, ?_, ?_, ?_⟩ <;> linarith
  refine ⟨(x - a.x) / (b.x - a.x), div_nonneg (by linarith) hd.le, (div_le_one hd).mpr (by linarith), ?_⟩
  have e : (x - a.x) / (b.x - a.x) * (b.x - a.x) = x - a.x := div_mul_cancel₀ _ hd.ne'
  refine ⟨?_, ?_, ?_, ?_⟩ <;> simp only [lerp, hy, e] <;> linarith

theorem crosses_col {r : Rect} {a b : Point} (hx : b.x = a.x) (hlt : a.y < b.y) (h1 : a.y < r.origin.y + r.size.height)
    (h2 : r.origin.y < b.y) (h3 : r.origin.x < a.x) (h4 : a.x < r.origin.x + r.size.width) (hw : 0 < r.size.height) :
    Crosses r a b := by
  have hd : 0 < b.y - a.y := by linarith
  obtain ⟨y, hy1, hy2, hy3, hy4⟩ : ∃ y, a.y ≤ y ∧ y ≤ b.y ∧ r.origin.y < y ∧ y < r.origin.y + r.size.height := by
    refine ⟨(max a.y r.origin.y + min b.y (r.origin.y + r.size.height)) / 2, ?_⟩
    have e1 := le_max_left a.y r.origin.y
    have e2 := le_max_right a.y r.origin.y
    have e3 := min_le_left b.y (r.origin.y + r.size.height)
    have e4 := min_le_right b.y (r.origin.y + r.size.height)
    have e5 : max a.y r.origin.y < min b.y (r.origin.y + r.size.height) := by
      rw [max_lt_iff, lt_min_iff, lt_min_iff]
      exact ⟨⟨hlt, h1⟩, h2, by linarith⟩
    refine ⟨?_, ?_, ?_, ?_⟩ <;> linarith
  refine ⟨(y - a.y) / (b.y - a.y), div_nonneg (by linarith) hd.le, (div_le_one hd).mpr (by linarith), ?_⟩
  have e : (y - a.y) / (b.y - a.y) * (b.y - a.y) = y - a.y := div_mul_cancel₀ _ hd.ne'
  refine ⟨?_, ?_, ?_, ?_⟩ <;> simp only [lerp, hx, e] <;> linarith

/-- A horizontal segment at the height of a side either meets the rectangle or is beside it. -/
theorem meets_row {r : Rect} {a b : Point} (hy : b.y = a.y) (hlt : a.x < b.x) (h1 : a.x ≤ r.origin.x + r.size.width)
    (h2 : r.origin.x ≤ b.x) (h3 : r.origin.y ≤ a.y) (h4 : a.y ≤ r.origin.y + r.size.height) (hw : 0 ≤ r.size.width) :
    Meets r a b := by
  have hd : 0 < b.x - a.x := by linarith
  obtain ⟨x, hx1, hx2, hx3, hx4⟩ : ∃ x, a.x ≤ x ∧ x ≤ b.x ∧ r.origin.x ≤ x ∧ x ≤ r.origin.x + r.size.width := by
    refine ⟨max a.x r.origin.x, le_max_left _ _, ?_, le_max_right _ _, ?_⟩
    · exact max_le hlt.le h2
    · exact max_le h1 (by linarith)
  refine ⟨(x - a.x) / (b.x - a.x), div_nonneg (by linarith) hd.le, (div_le_one hd).mpr (by linarith), ?_⟩
  have e : (x - a.x) / (b.x - a.x) * (b.x - a.x) = x - a.x := div_mul_cancel₀ _ hd.ne'
  refine ⟨?_, ?_, ?_, ?_⟩ <;> simp only [lerp, hy, e] <;> linarith

section
variable {ns : List Nat} {cs : List (NodeRef × NodeRef)}

local notation "ES" => allEnds ns cs
local notation "PL" => places ns (allEnds ns cs)

/-- The rectangle of the table in column `c` and row `r`. -/
abbrev box (ns : List Nat) (c r m : Nat) : Rect := ⟨⟨50 + 380 * (c : Rat), rowTop ns r⟩, ⟨300, 35 * (m : Rat)⟩⟩

/-- Beside the rectangle of a table. -/
def Beside (ns : List Nat) (c r m : Nat) (p : Point) : Prop :=
  p.x + 40 ≤ 50 + 380 * (c : Rat) ∨ 350 + 380 * (c : Rat) + 40 ≤ p.x ∨ p.y + 40 ≤ rowTop ns r ∨
    rowTop ns r + 35 * (m : Rat) + 40 ≤ p.y

theorem street_beside {c r m i : Nat} {p : Point} (h : p.x = 10 + 380 * (i : Rat)) : Beside ns c r m p := by
  rcases Nat.lt_or_ge c i with hlt | hle
  · have : (c : Rat) + 1 ≤ i := by exact_mod_cast hlt
    exact .inr (.inl (by linarith))
  · have : (i : Rat) ≤ c := by exact_mod_cast hle
    exact .inl (by linarith)

/-- At a table in another column. -/
theorem col_beside {c c' r m : Nat} {p : Point} {x : Rat} (hne : c' ≠ c) (h : p.x = x + 380 * (c' : Rat)) (h1 : 50 ≤ x) (h2 : x ≤ 350) :
    Beside ns c r m p := by
  rcases Nat.lt_or_gt_of_ne hne with hlt | hlt
  · have : (c' : Rat) + 1 ≤ c := by exact_mod_cast hlt
    exact .inl (by linarith)
  · have : (c : Rat) + 1 ≤ c' := by exact_mod_cast hlt
    exact .inr (.inl (by linarith))

/-- At a table in another row. -/
theorem row_beside {c c' r r' m m' : Nat} {p : Point} (h : Tab ns c r m) (h' : Tab ns c' r' m') (hne : r' ≠ r)
    (h1 : rowTop ns r' ≤ p.y) (h2 : p.y ≤ rowTop ns r' + 35 * (m' : Rat)) : Beside ns c r m p := by
  rcases Nat.lt_or_gt_of_ne hne with hlt | hlt
  · have := h'.apart hlt
    exact .inr (.inr (.inl (by linarith)))
  · have := h.apart hlt
    exact .inr (.inr (.inr (by linarith)))

/-- Each place is an end at the table, or 40 away from it. -/
theorem place_beside (h : Ok ns cs) {n : RouteNodeData} (hn : n ∈ PL) {c r m : Nat} (hm : Tab ns c r m) :
    (∃ o, n.orientation = some o ∧ OnSide (box ns c r m) o n.location) ∨ Beside ns c r m n.location := by
  have hm1 := h.one hm
  rcases place_cases h hn with ⟨-, c', r', m', hm', hx, -⟩ | ⟨-, c', r', m', hm', -, -, -, j, hj, hx, -⟩ |
      ⟨-, hclose, c', r', m', hm', hx, ⟨j, hj, hy⟩, -⟩ | ⟨c', r', m', hm', he⟩
  · right
    rcases hx with hx | hx
    · exact street_beside hx
    · exact street_beside (i := c' + 1) (by push_cast; linarith)
  · right
    obtain ⟨i, -, hi⟩ := street_x hj
    exact street_beside (hx.trans hi)
  · right
    by_cases hc : c' = c
    · subst hc
      obtain ⟨i, hi⟩ := corner_int hj
      obtain ⟨t, ht⟩ := rowTop_int ns r
      by_contra hno
      unfold Beside at hno
      push Not at hno
      obtain ⟨-, -, h3, h4⟩ := hno
      apply hclose
      refine ⟨_, hm.mem, ?_⟩
      simp only
      rw [hy, hi, ht] at h3 h4
      have h3' : t - 40 < i := by
        have : (t : Rat) - 40 < i := by linarith
        exact_mod_cast this
      have h4' : i < t + 35 * (m : Int) + 40 := by exact_mod_cast h4
      refine ⟨by linarith, by linarith, ?_, ?_⟩
      · rw [hy, hi, ht]
        have : t - 39 ≤ i := by omega
        exact_mod_cast this
      · rw [hy, hi, ht]
        have : i ≤ t + 35 * (m : Int) + 39 := by omega
        exact_mod_cast this
    · exact col_beside hc hx (by norm_num) (by norm_num)
  · by_cases hc : c' = c
    · by_cases hr : r' = r
      · subst hc hr
        obtain rfl := hm'.unique hm
        left
        rcases he with ⟨ho, h1, h2, h3, -⟩ | ⟨ho, h1, h2, h3, -⟩ | ⟨ho, hl, -⟩ | ⟨ho, hl, -⟩
        · exact ⟨_, ho, h1, h2, h3⟩
        · exact ⟨_, ho, by simp only [h1]; ring, h2, h3⟩
        · refine ⟨_, ho, ?_⟩
          rw [hl]
          refine ⟨rfl, ?_, ?_⟩ <;> simp only <;> linarith
        · refine ⟨_, ho, ?_⟩
          rw [hl]
          refine ⟨rfl, ?_, ?_⟩ <;> simp only <;> linarith
      · right
        have hm1' := h.one hm'
        rcases he with ⟨-, h1, h2, h3, -⟩ | ⟨-, h1, h2, h3, -⟩ | ⟨-, hl, -⟩ | ⟨-, hl, -⟩
        · exact row_beside hm hm' hr h2.le h3.le
        · exact row_beside hm hm' hr h2.le h3.le
        · exact row_beside hm hm' hr (by rw [hl]) (by rw [hl]; simp only; linarith)
        · exact row_beside hm hm' hr (by rw [hl]; simp only; linarith) (by rw [hl])
    · right
      rcases he with ⟨-, h1, -⟩ | ⟨-, h1, -⟩ | ⟨-, hl, -⟩ | ⟨-, hl, -⟩
      · exact col_beside hc h1 (by norm_num) (by norm_num)
      · exact col_beside hc h1 (by norm_num) (by norm_num)
      · exact col_beside hc (by rw [hl]) (by norm_num) (by norm_num)
      · exact col_beside hc (by rw [hl]) (by norm_num) (by norm_num)

/-- The direction of a road. -/
theorem road_towards {n m : RouteNodeData} (hr : RoadBetween ns PL n m) :
    ∃ d, Towards d n.location m.location ∧ Open d n ∧ Open (opposite d) m := by
  obtain ⟨a, b, ha, hb, d, hd | hd⟩ := hr
  · exact ⟨d, neighbour_ahead hd ha hb⟩
  · obtain ⟨h1, h2, h3⟩ := neighbour_ahead hd hb ha
    refine ⟨opposite d, ?_, h3, ?_⟩
    · cases d <;> simp only [Towards, opposite] at h1 ⊢ <;> exact ⟨h1.1.symm, h1.2⟩
    · cases d <;> exact h2

/-- An end is left away from its table. -/
theorem end_leaves {n m : RouteNodeData} {d o : Orientation} {r : Rect} (ht : Towards d n.location m.location) (hop : Open d n)
    (ho : n.orientation = some o) (hs : OnSide r o n.location) : Leaves r n.location m.location := by
  rcases hop with hop | hop <;> rw [ho] at hop
  · cases hop
  · cases hop
    exact ⟨_, hs, ht⟩

/-- The heights of places from which a way leads to the left or to the right. -/
theorem place_rowY_side (h : Ok ns cs) {n : RouteNodeData} (hn : n ∈ PL) (ho : Open .left n ∨ Open .right n) :
    ∃ r, RowY ns (OddTables ns cs) r n.location.y := by
  rcases place_cases h hn with ⟨-, c, r, m, hm, hx, hy⟩ | ⟨-, c, r, m, hm, -, -, hs, -⟩ | ⟨-, -, c, r, m, hm, hx, ⟨j, hj, hy⟩, -⟩ |
      ⟨c, r, m, hm, he⟩
  · exact corner_rowY (j := n.location) (mem_corners.mpr ⟨c, r, m, hm, hx, hy⟩)
  · exact side_rowY (p := ⟨50 + 380 * (c : Rat), n.location.y⟩) h (.inl rfl) hs.1
  · rw [hy]; exact corner_rowY hj
  · rcases he with ⟨-, -, -, -, hs⟩ | ⟨-, -, -, -, hs⟩ | ⟨he, -⟩ | ⟨he, -⟩
    · exact side_rowY (p := ⟨50 + 380 * (c : Rat), n.location.y⟩) h (.inl rfl) hs.1
    · exact side_rowY (p := ⟨50 + 380 * (c : Rat), n.location.y⟩) h (.inl rfl) hs.1
    · rcases ho with ho | ho <;> rcases ho with ho | ho <;> rw [he] at ho <;> simp at ho
    · rcases ho with ho | ho <;> rcases ho with ho | ho <;> rw [he] at ho <;> simp at ho

/-- Heights beside a table: within it, at its lower side, or at least 5 away. -/
theorem rowY_table {odd : Prop} {c r r' m : Nat} {y : Rat} (h : RowY ns odd r' y) (hm : Tab ns c r m) :
    (rowTop ns r < y ∧ y < rowTop ns r + 35 * (m : Rat)) ∨ (¬ odd ∧ y = rowTop ns r + 35 * (m : Rat)) ∨
      y + 40 ≤ rowTop ns r ∨ rowTop ns r + 35 * (m : Rat) + 5 ≤ y := by
  rcases Nat.lt_trichotomy r' r with hlt | rfl | hlt
  · have := rows_apart (ns := ns) hlt
    have := rowY_le h
    exact .inr (.inr (.inl (by linarith)))
  · obtain ⟨u, rfl, hu⟩ := h
    rcases hu with rfl | ⟨k, hk, rfl⟩ | ⟨i, hi, -, rfl, hodd⟩
    · refine .inr (.inr (.inl ?_))
      push_cast; linarith
    · rcases Nat.lt_or_ge (k + 1) m with hlt | hge
      · left
        have : (k : Rat) + 2 ≤ m := by exact_mod_cast hlt
        have : (0 : Rat) ≤ k := by exact_mod_cast Nat.zero_le k
        push_cast
        constructor <;> linarith
      · right; right; right
        have : (m : Rat) ≤ k + 1 := by exact_mod_cast hge
        push_cast
        linarith
    · have hi' : (1 : Rat) ≤ i := by exact_mod_cast hi
      rcases Nat.lt_trichotomy i (2 * m) with hlt | rfl | hlt
      · left
        have : (i : Rat) + 1 ≤ 2 * m := by exact_mod_cast hlt
        push_cast
        constructor <;> linarith
      · right; left
        refine ⟨fun ho => ?_, by push_cast; ring⟩
        have := hodd ho
        omega
      · right; right; right
        have : (2 * m : Rat) + 1 ≤ i := by exact_mod_cast hlt
        push_cast
        linarith
  · have := hm.apart hlt
    have := rowY_ge h
    exact .inr (.inr (.inr (by linarith)))

/-- A road to the right. -/
theorem right_clear (h : Ok ns cs) {n m : RouteNodeData} (hn : n ∈ PL) (hm : m ∈ PL) (ht : Towards .right n.location m.location)
    (hon : Open .right n) (hom : Open .left m) {c r w : Nat} (hk : Tab ns c r w) :
    Crosses (box ns c r w) n.location m.location ∨ Leaves (box ns c r w) n.location m.location ∨
      Leaves (box ns c r w) m.location n.location ∨ (¬ OddTables ns cs ∧ AlongBottom (box ns c r w) n.location m.location) ∨
      ClearOf 5 (box ns c r w) n.location m.location := by
  have hk1 := h.one hk
  have ht' : Towards .left m.location n.location := ⟨ht.1.symm, ht.2⟩
  rcases place_beside h hn hk with ⟨o, ho, hs⟩ | hbn
  · exact .inr (.inl (end_leaves ht hon ho hs))
  rcases place_beside h hm hk with ⟨o, ho, hs⟩ | hbm
  · exact .inr (.inr (.inl (end_leaves ht' hom ho hs)))
  obtain ⟨hy, hlt⟩ := ht
  obtain ⟨r', hrow⟩ := place_rowY_side h hn (.inr hon)
  rcases rowY_table hrow hk with ⟨y1, y2⟩ | ⟨hodd, y1⟩ | y1 | y1
  · unfold Beside at hbn hbm
    rw [hy] at hbm
    rcases hbn with e | e | e | e
    · rcases hbm with e' | e' | e' | e'
      · exact .inr (.inr (.inr (.inr (clear_mono (by norm_num : (5 : Rat) ≤ 40) (clear_of (.inl ⟨e, e'⟩))))))
      · exact .inl (crosses_row hy hlt (by simp only; linarith) (by simp only; linarith) y1 y2 (by norm_num))
      · linarith
      · linarith
    · rcases hbm with e' | e' | e' | e'
      · linarith
      · exact .inr (.inr (.inr (.inr (clear_mono (by norm_num : (5 : Rat) ≤ 40)
          (clear_of (.inr (.inl ⟨by simp only; linarith, by simp only; linarith⟩)))))))
      · linarith
      · linarith
    · linarith
    · linarith
  · by_cases e : n.location.x ≤ 350 + 380 * (c : Rat) ∧ 50 + 380 * (c : Rat) ≤ m.location.x
    · refine .inr (.inr (.inr (.inl ⟨hodd, y1, hy.trans y1, ?_⟩)))
      exact meets_row hy hlt (by simp only; linarith [e.1]) e.2 (by simp only; linarith) (by simp only; linarith) (by norm_num)
    · refine .inr (.inr (.inr (.inr (clear_mono (by norm_num : (5 : Rat) ≤ 40) (clear_of ?_)))))
      unfold Beside at hbn hbm
      rw [hy] at hbm
      by_cases e1 : n.location.x ≤ 350 + 380 * (c : Rat)
      · have e2 : m.location.x < 50 + 380 * (c : Rat) := by
          by_contra hno
          exact e ⟨e1, not_lt.mp hno⟩
        left
        constructor
        · rcases hbn with e' | e' | e' | e' <;> simp only <;> linarith
        · rcases hbm with e' | e' | e' | e' <;> simp only <;> linarith
      · right; left
        constructor
        · rcases hbn with e' | e' | e' | e' <;> simp only <;> linarith
        · rcases hbm with e' | e' | e' | e' <;> simp only <;> linarith
  · exact .inr (.inr (.inr (.inr (clear_of (.inr (.inr (.inl ⟨by simp only; linarith, by simp only; linarith⟩)))))))
  · exact .inr (.inr (.inr (.inr (clear_of (.inr (.inr (.inr ⟨by simp only; linarith, by simp only; linarith⟩)))))))

/-- A road down. -/
theorem down_clear (h : Ok ns cs) {n m : RouteNodeData} (hn : n ∈ PL) (hm : m ∈ PL) (ht : Towards .down n.location m.location)
    (hon : Open .down n) (hom : Open .up m) {c r w : Nat} (hk : Tab ns c r w) :
    Crosses (box ns c r w) n.location m.location ∨ Leaves (box ns c r w) n.location m.location ∨
      Leaves (box ns c r w) m.location n.location ∨ ClearOf 40 (box ns c r w) n.location m.location := by
  have hk1 := h.one hk
  have ht' : Towards .up m.location n.location := ⟨ht.1.symm, ht.2⟩
  rcases place_beside h hn hk with ⟨o, ho, hs⟩ | hbn
  · exact .inr (.inl (end_leaves ht hon ho hs))
  rcases place_beside h hm hk with ⟨o, ho, hs⟩ | hbm
  · exact .inr (.inr (.inl (end_leaves ht' hom ho hs)))
  obtain ⟨hx, hlt⟩ := ht
  unfold Beside at hbn hbm
  rw [hx] at hbm
  by_cases x1 : n.location.x + 40 ≤ 50 + 380 * (c : Rat)
  · exact .inr (.inr (.inr (clear_of (.inl ⟨x1, by simp only; linarith⟩))))
  by_cases x2 : 350 + 380 * (c : Rat) + 40 ≤ n.location.x
  · exact .inr (.inr (.inr (clear_of (.inr (.inl ⟨by simp only; linarith, by simp only; linarith⟩)))))
  have xin : 50 + 380 * (c : Rat) < n.location.x ∧ n.location.x < 350 + 380 * (c : Rat) := by
    obtain ⟨i, -, ⟨-, hi⟩ | ⟨-, ⟨ho, -⟩ | hi | ⟨ho, -⟩⟩⟩ := place_x h hn
    · rcases street_beside (ns := ns) (c := c) (r := r) (m := 0) (p := ⟨n.location.x, rowTop ns r⟩) hi with e | e | e | e
      · exact absurd e x1
      · exact absurd e x2
      · simp only at e; linarith
      · simp only at e; push_cast at e; linarith
    · exact (not_open hon ho (by simp)).elim
    · by_cases hc : i = c
      · subst hc; constructor <;> linarith
      · rcases col_beside (ns := ns) (c := c) (r := r) (m := 0) (p := ⟨n.location.x, rowTop ns r⟩) hc hi (by norm_num) (by norm_num)
          with e | e | e | e
        · exact absurd e x1
        · exact absurd e x2
        · simp only at e; linarith
        · simp only at e; push_cast at e; linarith
    · exact (not_open hon ho (by simp)).elim
  rcases hbn with e | e | e | e
  · exact absurd e x1
  · exact absurd e x2
  · rcases hbm with e' | e' | e' | e'
    · exact absurd e' x1
    · exact absurd e' x2
    · exact .inr (.inr (.inr (clear_of (.inr (.inr (.inl ⟨e, e'⟩))))))
    · exact .inl (crosses_col hx hlt (by simp only; linarith) (by simp only; linarith) xin.1 (by simp only; linarith [xin.2])
        (by simp only; linarith))
  · exact .inr (.inr (.inr (clear_of (.inr (.inr (.inr ⟨e, by simp only; linarith⟩))))))

/-- Any road. -/
theorem road_clear (h : Ok ns cs) {n m : RouteNodeData} (hr : RoadBetween ns PL n m) {c r w : Nat} (hk : Tab ns c r w) :
    Crosses (box ns c r w) n.location m.location ∨ Leaves (box ns c r w) n.location m.location ∨
      Leaves (box ns c r w) m.location n.location ∨ (¬ OddTables ns cs ∧ AlongBottom (box ns c r w) n.location m.location) ∨
      ClearOf 5 (box ns c r w) n.location m.location := by
  have hn := hr.left
  have hm := hr.symm.left
  obtain ⟨d, ht, hon, hom⟩ := road_towards hr
  cases d with
  | right => exact right_clear h hn hm ht hon hom hk
  | left =>
    rcases right_clear h hm hn ⟨ht.1.symm, ht.2⟩ hom hon hk with e | e | e | ⟨e, e1, e2, e3⟩ | e
    · exact .inl (crosses_symm e)
    · exact .inr (.inr (.inl e))
    · exact .inr (.inl e)
    · exact .inr (.inr (.inr (.inl ⟨e, e2, e1, meets_symm e3⟩)))
    · exact .inr (.inr (.inr (.inr (clear_symm e))))
  | down =>
    rcases down_clear h hn hm ht hon hom hk with e | e | e | e
    · exact .inl e
    · exact .inr (.inl e)
    · exact .inr (.inr (.inl e))
    · exact .inr (.inr (.inr (.inr (clear_mono (by norm_num) e))))
  | up =>
    rcases down_clear h hm hn ⟨ht.1.symm, ht.2⟩ hom hon hk with e | e | e | e
    · exact .inl (crosses_symm e)
    · exact .inr (.inr (.inl e))
    · exact .inr (.inl e)
    · exact .inr (.inr (.inr (.inr (clear_symm (clear_mono (by norm_num) e)))))

end

end Seiren.Grid
