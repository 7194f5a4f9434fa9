import Mathlib.Data.List.Chain
import Verif.Proofs.GridWays
import Verif.Proofs.Loss
import Verif.Spec.Neighbours
/-! # Routes between tables that stand side by side -/

namespace Seiren
open Spec
namespace Grid

variable {ns : List Nat} {cs : List (NodeRef × NodeRef)}

local notation "ES" => allEnds ns cs
local notation "PL" => places ns (allEnds ns cs)

/-! ## Heights -/

/-- The height of the upper or lower side of a table or of its frame, or of the middle of a table with an even number of lines. -/
def Marked (ns : List Nat) (y : Rat) : Prop :=
  ∃ c r m, Tab ns c r m ∧ (y = rowTop ns r ∨ y = rowTop ns r - 40 ∨ y = rowTop ns r + 35 * (m : Rat) ∨
    y = rowTop ns r + 35 * (m : Rat) + 40 ∨ ∃ i : Nat, m = 2 * i ∧ y = rowTop ns r + 35 * (i : Rat))

/-- Half-way between whole numbers. -/
def Half (y : Rat) : Prop := ∃ i : Int, y = i + 1 / 2

theorem ends_height (h : Ok ns cs) {p : Point} {o : Orientation} (hp : (p, o) ∈ ES) : Marked ns p.y ∨ Half p.y := by
  have key : ∀ r, ValidRef ns r → (p, o) ∈ endsOf ns r → Marked ns p.y ∨ Half p.y := by
    intro r hr hp
    simp only [endsOf, List.mem_map, Prod.mk.injEq] at hp
    obtain ⟨o', ho, rfl, rfl⟩ := hp
    cases r with
    | table k =>
      obtain ⟨n, hn⟩ := hr
      have ht := tab_of hn
      have mid : Marked ns (rowTop ns (k / 3) + 35 * (n : Rat) / 2) ∨ Half (rowTop ns (k / 3) + 35 * (n : Rat) / 2) := by
        rcases Nat.even_or_odd' n with ⟨i, hi | hi⟩
        · exact .inl ⟨_, _, _, ht, .inr (.inr (.inr (.inr ⟨i, hi, by rw [hi]; push_cast; ring⟩)))⟩
        · obtain ⟨z, hz⟩ := rowTop_int ns (k / 3)
          exact .inr ⟨z + 35 * (i : Int) + 17, by rw [hi, hz]; push_cast; ring⟩
      cases o' <;> simp only [refRect, hn, Option.getD_some, sideMiddle, tableRect]
      · exact .inl ⟨_, _, _, ht, .inl rfl⟩
      · exact .inl ⟨_, _, _, ht, .inr (.inr (.inl rfl))⟩
      · exact mid
      · exact mid
    | column k j =>
      obtain ⟨z, hz⟩ := rowTop_int ns (k / 3)
      have mid : Half (rowTop ns (k / 3) + 35 * ((j + 1 : Nat) : Rat) + 35 / 2) :=
        ⟨z + 35 * ((j + 1 : Nat) : Int) + 17, by rw [hz]; push_cast; ring⟩
      have hup : o' ≠ .up := by
        rintro rfl
        simp only [sidesOf] at ho
        split at ho <;> simp at ho
      cases o' <;> simp only [refRect, sideMiddle, lineRect]
      · exact absurd rfl hup
      · simp only [sidesOf] at ho
        split at ho
        · rename_i hn
          exact .inl ⟨_, _, _, tab_of hn, .inr (.inr (.inl (by push_cast; ring)))⟩
        · simp at ho
      · exact .inr mid
      · exact .inr mid
  simp only [allEnds, List.mem_flatMap, List.mem_append] at hp
  obtain ⟨c, hc, hp | hp⟩ := hp
  · exact key _ (h.valid c hc).1 hp
  · exact key _ (h.valid c hc).2 hp

theorem corner_marked {j : Point} (hj : j ∈ corners ns) : Marked ns j.y := by
  obtain ⟨c, r, m, hm, -, hy | hy⟩ := mem_corners.mp hj
  · exact ⟨c, r, m, hm, .inr (.inl hy)⟩
  · exact ⟨c, r, m, hm, .inr (.inr (.inr (.inl hy)))⟩

theorem place_height (h : Ok ns cs) {n : RouteNodeData} (hn : n ∈ PL) : Marked ns n.location.y ∨ Half n.location.y := by
  rcases mem_places.mp hn with ⟨-, hc⟩ | ⟨o, -, hc⟩
  · obtain ⟨-, hc | ⟨e, o, j, hc, hj, hs, hp⟩⟩ := mem_crossings.mp hc
    · exact .inl (corner_marked hc)
    · rw [hp]
      cases o <;> simp only [crossingAt]
      · exact .inl (corner_marked hj)
      · exact .inl (corner_marked hj)
      · exact ends_height h hc
      · exact ends_height h hc
  · exact ends_height h hc

theorem Marked.int {y : Rat} (h : Marked ns y) : ∃ i : Int, y = i := by
  obtain ⟨c, r, m, -, hy⟩ := h
  obtain ⟨z, hz⟩ := rowTop_int ns r
  rcases hy with hy | hy | hy | hy | ⟨i, -, hy⟩
  · exact ⟨z, by rw [hy, hz]⟩
  · exact ⟨z - 40, by rw [hy, hz]; push_cast; ring⟩
  · exact ⟨z + 35 * (m : Int), by rw [hy, hz]; push_cast; ring⟩
  · exact ⟨z + 35 * (m : Int) + 40, by rw [hy, hz]; push_cast; ring⟩
  · exact ⟨z + 35 * (i : Int), by rw [hy, hz]; push_cast; ring⟩

/-- The marked heights of a row. -/
def rowMarks (ns : List Nat) (r : Nat) : List Rat :=
  let mark (c : Nat) : List Rat := let m : Rat := (ns[3 * r + c]?.getD 0 : Nat)
    [rowTop ns r + 35 * m, rowTop ns r + 35 * m + 40, rowTop ns r + 35 * m / 2]
  [rowTop ns r, rowTop ns (r + 1), rowTop ns (r + 1) - 40] ++ mark 0 ++ mark 1 ++ mark 2

theorem Marked.mem {y : Rat} (h : Marked ns y) {r : Nat} (h1 : rowTop ns r ≤ y) (h2 : y ≤ rowTop ns (r + 1)) : y ∈ rowMarks ns r := by
  obtain ⟨c, r', m, ht, hy⟩ := h
  have m0 : (0 : Rat) ≤ m := Nat.cast_nonneg m
  rcases Nat.lt_trichotomy r' r with hlt | rfl | hlt
  · exfalso
    have := ht.apart hlt
    rcases hy with hy | hy | hy | hy | ⟨i, rfl, hy⟩
    · linarith
    · linarith
    · linarith
    · linarith
    · push_cast at m0 this; linarith
  · have hm : ns[3 * r' + c]?.getD 0 = m := by rw [ht.2]; rfl
    have hc : y = rowTop ns r' + 35 * (m : Rat) ∨ y = rowTop ns r' + 35 * (m : Rat) + 40 ∨ y = rowTop ns r' + 35 * (m : Rat) / 2 →
        y ∈ rowMarks ns r' := by
      intro hy
      rcases col3 ht.1 with rfl | rfl | rfl <;> simp only [rowMarks, hm, List.mem_append, List.mem_cons, List.not_mem_nil, or_false] <;> tauto
    rcases hy with hy | hy | hy | hy | ⟨i, rfl, hy⟩
    · rw [hy]; simp [rowMarks]
    · linarith
    · exact hc (.inl hy)
    · exact hc (.inr (.inl hy))
    · exact hc (.inr (.inr (by rw [hy]; push_cast; ring)))
  · rcases Nat.lt_or_ge (r + 1) r' with h3 | h3
    · exfalso
      have := rows_apart (ns := ns) h3
      have : (0 : Rat) ≤ tallest ns (r + 1) := Nat.cast_nonneg _
      rcases hy with hy | hy | hy | hy | ⟨i, rfl, hy⟩
      · linarith
      · linarith
      · linarith
      · linarith
      · push_cast at m0; linarith
    · obtain rfl : r' = r + 1 := by omega
      rcases hy with hy | hy | hy | hy | ⟨i, rfl, hy⟩
      · rw [hy]; simp [rowMarks]
      · rw [hy]; simp [rowMarks]
      · have : y = rowTop ns (r + 1) := by linarith
        rw [this]; simp [rowMarks]
      · linarith
      · have : y = rowTop ns (r + 1) := by push_cast at m0; linarith
        rw [this]; simp [rowMarks]

/-- Those of `d + 1` rows, as whole numbers. -/
def markSet (ns : List Nat) (r d : Nat) : Finset Int := (((List.range (d + 1)).flatMap fun i => rowMarks ns (r + i)).map Rat.floor).toFinset

theorem markSet_card (ns : List Nat) (r d : Nat) : ((markSet ns r d).card : Rat) ≤ 12 * d + 12 := by
  have hl : ∀ n, ((List.range n).flatMap fun i => rowMarks ns (r + i)).length = 12 * n := by
    intro n
    induction n with
    | zero => rfl
    | succ n ih =>
      rw [List.range_succ, List.flatMap_append, List.length_append, ih]
      simp [rowMarks]
      omega
  have : (markSet ns r d).card ≤ 12 * d + 12 := (List.toFinset_card_le _).trans (by rw [List.length_map, hl]; omega)
  exact_mod_cast this

/-- Every height of some rows belongs to one of them. -/
theorem in_row {y : Rat} : ∀ {d r : Nat}, rowTop ns r ≤ y → y ≤ rowTop ns (r + d + 1) →
    ∃ i, i ≤ d ∧ rowTop ns (r + i) ≤ y ∧ y ≤ rowTop ns (r + i + 1) := by
  intro d
  induction d with
  | zero => exact fun h1 h2 => ⟨0, le_refl _, h1, h2⟩
  | succ d ih =>
    intro r h1 h2
    rcases le_total y (rowTop ns (r + d + 1)) with h | h
    · obtain ⟨i, hi, h3, h4⟩ := ih h1 h
      exact ⟨i, by omega, h3, h4⟩
    · exact ⟨d + 1, le_refl _, h, h2⟩

/-- Two heights of places in some rows. -/
structure Strip (ns : List Nat) (cs : List (NodeRef × NodeRef)) (r d : Nat) (lo hi : Rat) : Prop where
  le : lo ≤ hi
  top : rowTop ns r ≤ lo
  bottom : hi ≤ rowTop ns (r + d + 1)
  low : ∃ n ∈ places ns (allEnds ns cs), n.location.y = lo
  high : ∃ n ∈ places ns (allEnds ns cs), n.location.y = hi

theorem Strip.level {r d : Nat} {lo hi : Rat} (hs : Strip ns cs r d lo hi) (h : Ok ns cs) {n : RouteNodeData} (hn : n ∈ PL)
    (h1 : lo ≤ n.location.y) (h2 : n.location.y ≤ hi) : Loss.Level (markSet ns r d) n.location.y := by
  rcases place_height h hn with hm | hm
  · left
    obtain ⟨i, hi'⟩ := hm.int
    refine ⟨i, ?_, hi'⟩
    rw [markSet, List.mem_toFinset, List.mem_map]
    obtain ⟨l, hl, h3, h4⟩ := in_row (hs.top.trans h1) (h2.trans hs.bottom)
    exact ⟨_, List.mem_flatMap.mpr ⟨l, List.mem_range.mpr (by omega), hm.mem h3 h4⟩, by rw [hi', Rat.floor_intCast]⟩
  · exact .inr hm

theorem Strip.clip {r d : Nat} {lo hi : Rat} (hs : Strip ns cs r d lo hi) (h : Ok ns cs) {n : RouteNodeData} (hn : n ∈ PL) :
    Loss.Level (markSet ns r d) (Loss.clip lo hi n.location.y) ∧ Step (Loss.clip lo hi n.location.y) := by
  obtain ⟨h1, h2⟩ := Loss.clip_mem hs.le n.location.y
  rcases Loss.clip_cases lo hi n.location.y with e | e | e
  · obtain ⟨k, hk, rfl⟩ := hs.low
    rw [e]
    exact ⟨hs.level h hk (le_refl _) hs.le, place_step h hk⟩
  · obtain ⟨k, hk, rfl⟩ := hs.high
    rw [e]
    exact ⟨hs.level h hk hs.le (le_refl _), place_step h hk⟩
  · rw [e] at h1 h2 ⊢
    exact ⟨hs.level h hn h1 h2, place_step h hn⟩

theorem vertical_cost (h : Ok ns cs) {r d : Nat} {lo hi : Rat} (hs : Strip ns cs r d lo hi) {n m : RouteNodeData} (hn : n ∈ PL) (hm : m ∈ PL) :
    |Loss.height (markSet ns r d) (Loss.clip lo hi m.location.y) - Loss.height (markSet ns r d) (Loss.clip lo hi n.location.y)| ≤
      ((|m.location.y - n.location.y|).floor : Rat) := by
  have key : ∀ {n m : RouteNodeData}, n ∈ PL → m ∈ PL → n.location.y ≤ m.location.y →
      |Loss.height (markSet ns r d) (Loss.clip lo hi m.location.y) - Loss.height (markSet ns r d) (Loss.clip lo hi n.location.y)| ≤
        ((|m.location.y - n.location.y|).floor : Rat) := by
    intro n m hn hm hle
    rw [abs_of_nonneg (by linarith : 0 ≤ m.location.y - n.location.y)]
    have hmono := Loss.clip_mono (lo := lo) (hi := hi) hle
    have hdist := Loss.clip_le (lo := lo) (hi := hi) hle
    obtain ⟨l1, s1⟩ := hs.clip h hn
    obtain ⟨l2, s2⟩ := hs.clip h hm
    rcases eq_or_lt_of_le hmono with e | hlt
    · rw [e, sub_self, abs_zero]
      have : (0 : Int) ≤ (m.location.y - n.location.y).floor := Rat.le_floor_iff.mpr (by push_cast; linarith)
      exact_mod_cast this
    · refine (Loss.height_floor l1 l2 (s1.apart s2 hlt)).trans ?_
      have : (Loss.clip lo hi m.location.y - Loss.clip lo hi n.location.y).floor ≤ (m.location.y - n.location.y).floor :=
        Rat.le_floor_iff.mpr ((Rat.floor_le _).trans hdist)
      exact_mod_cast this
  rcases le_total n.location.y m.location.y with hle | hle
  · exact key hn hm hle
  · have := key hm hn hle
    rw [abs_sub_comm, abs_sub_comm m.location.y]
    exact this

theorem place_x_int (h : Ok ns cs) {n : RouteNodeData} (hn : n ∈ PL) : ∃ i : Int, n.location.x = i := by
  obtain ⟨i, -, ⟨-, hi⟩ | ⟨-, ⟨-, hi⟩ | hi | ⟨-, hi⟩⟩⟩ := place_x h hn
  · exact ⟨10 + 380 * i, by rw [hi]; push_cast; ring⟩
  · exact ⟨50 + 380 * i, by rw [hi]; push_cast; ring⟩
  · exact ⟨200 + 380 * i, by rw [hi]; push_cast; ring⟩
  · exact ⟨350 + 380 * i, by rw [hi]; push_cast; ring⟩

/-- A road costs its length, less what is lost by rounding. -/
theorem road_cost (h : Ok ns cs) {r d : Nat} {lo hi : Rat} (hs : Strip ns cs r d lo hi) {n m : RouteNodeData} (hr : RoadBetween ns PL n m) :
    |m.location.x - n.location.x| + |Loss.height (markSet ns r d) (Loss.clip lo hi m.location.y) -
        Loss.height (markSet ns r d) (Loss.clip lo hi n.location.y)| ≤ (segmentCost n.location m.location : Rat) := by
  have hn := hr.left
  have hm := hr.symm.left
  have hv := vertical_cost h hs hn hm
  have hor : m.location.y = n.location.y ∨ m.location.x = n.location.x := by
    obtain ⟨a, b, ha, hb, d, hd | hd⟩ := hr
    · obtain ⟨ht, -⟩ := neighbour_ahead hd ha hb
      cases d
      · exact .inr ht.1
      · exact .inr ht.1
      · exact .inl ht.1
      · exact .inl ht.1
    · obtain ⟨ht, -⟩ := neighbour_ahead hd hb ha
      cases d
      · exact .inr ht.1.symm
      · exact .inr ht.1.symm
      · exact .inl ht.1.symm
      · exact .inl ht.1.symm
  unfold segmentCost
  rcases hor with e | e
  · rw [e, sub_self, abs_zero, sub_self, abs_zero, add_zero]
    obtain ⟨i, hi⟩ := place_x_int h hn
    obtain ⟨j, hj⟩ := place_x_int h hm
    have : |m.location.x - n.location.x| = ((|j - i| : Int) : Rat) := by rw [hi, hj]; push_cast; rfl
    rw [this, Rat.floor_intCast]
  · rw [e, sub_self, abs_zero, zero_add, zero_add]
    exact hv

/-! ## The cost of a path -/

/-- Two points are places joined by a road. -/
def Linked (ns : List Nat) (cs : List (NodeRef × NodeRef)) (a b : Point) : Prop :=
  ∃ n m : RouteNodeData, n.location = a ∧ m.location = b ∧ RoadBetween ns (places ns (allEnds ns cs)) n m

theorem path_height (h : Ok ns cs) {r d : Nat} {lo hi : Rat} (hs : Strip ns cs r d lo hi) : ∀ (ps : List Point) (a b : Point),
    ps.IsChain (Linked ns cs) → ps.head? = some a → ps.getLast? = some b → ∀ p ∈ ps, |p.x - a.x| + |b.x - p.x| +
      |Loss.height (markSet ns r d) (Loss.clip lo hi b.y) - Loss.height (markSet ns r d) (Loss.clip lo hi a.y)| ≤ (routeCost ps : Rat) := by
  intro ps
  induction ps with
  | nil => intro a b _ ha; cases ha
  | cons q ps ih =>
    intro a b hc ha hb p hp
    cases ha
    cases ps with
    | nil =>
      cases hb
      cases List.mem_singleton.mp hp
      simp [routeCost]
    | cons z ps =>
      rw [List.isChain_cons_cons] at hc
      rw [List.getLast?_cons_cons] at hb
      obtain ⟨⟨n, m, rfl, rfl, hr⟩, hc⟩ := hc
      have hseg := road_cost h hs hr
      have tri : ∀ x y z : Rat, |x - z| ≤ |x - y| + |y - z| := fun x y z => abs_sub_le x y z
      have t2 := tri (Loss.height (markSet ns r d) (Loss.clip lo hi b.y)) (Loss.height (markSet ns r d) (Loss.clip lo hi m.location.y))
        (Loss.height (markSet ns r d) (Loss.clip lo hi n.location.y))
      rw [routeCost, Int.cast_add]
      rcases List.mem_cons.mp hp with rfl | hp
      · have := ih m.location b hc rfl hb _ List.mem_cons_self
        rw [sub_self, abs_zero] at this ⊢
        have t1 := tri b.x m.location.x n.location.x
        linarith
      · have := ih m.location b hc rfl hb p hp
        have t1 := tri p.x m.location.x n.location.x
        linarith

/-- A path through `p` costs at least its horizontal way, and its vertical way between two heights but for half a unit and 12 for each of
their rows. -/
theorem path_lower (h : Ok ns cs) {r d : Nat} {lo hi : Rat} (hs : Strip ns cs r d lo hi) {ps : List Point} {a b : Point}
    (hc : ps.IsChain (Linked ns cs)) (ha : ps.head? = some a) (hb : ps.getLast? = some b) {p : Point} (hp : p ∈ ps) :
    |p.x - a.x| + |b.x - p.x| + |Loss.clip lo hi b.y - Loss.clip lo hi a.y| - (12 * d + 25 / 2) ≤ (routeCost ps : Rat) := by
  have h1 := path_height h hs ps a b hc ha hb p hp
  have h2 := Loss.height_lower (markSet ns r d) (Loss.clip lo hi a.y) (Loss.clip lo hi b.y)
  have h3 := markSet_card ns r d
  linarith

/-! ## Between two tables -/

theorem linked_mem {a b : Point} (h : Linked ns cs a b) : (∃ n ∈ PL, n.location = a) ∧ ∃ m ∈ PL, m.location = b := by
  obtain ⟨n, m, rfl, rfl, hr⟩ := h
  exact ⟨⟨n, hr.left, rfl⟩, m, hr.symm.left, rfl⟩

/-- Between the tables of two neighbouring columns there are only ends and the street. -/
theorem band (h : Ok ns cs) {n : RouteNodeData} (hn : n ∈ PL) {i : Nat} (h1 : -30 + 380 * (i : Rat) ≤ n.location.x)
    (h2 : n.location.x ≤ 50 + 380 * (i : Rat)) :
    n.orientation = some .right ∧ n.location.x = -30 + 380 * (i : Rat) ∧ (∃ c, i = c + 1) ∨
      n.orientation = none ∧ n.location.x = 10 + 380 * (i : Rat) ∨ n.orientation = some .left ∧ n.location.x = 50 + 380 * (i : Rat) := by
  have pick : ∀ {c : Nat} {a : Rat}, n.location.x = a + 380 * (c : Rat) → 10 ≤ a → a ≤ 350 → i = c + 1 ∧ a = 350 ∨ i = c ∧ a ≤ 50 := by
    intro c a hx ha hb
    rcases Nat.lt_trichotomy c i with hlt | rfl | hlt
    · rcases Nat.lt_or_ge (c + 1) i with h3 | h3
      · have : (c : Rat) + 2 ≤ i := by exact_mod_cast h3
        exfalso; linarith
      · have e : i = c + 1 := by omega
        subst e
        push_cast at h1
        exact .inl ⟨rfl, by linarith⟩
    · exact .inr ⟨rfl, by linarith⟩
    · have : (i : Rat) + 1 ≤ c := by exact_mod_cast hlt
      exfalso; linarith
  obtain ⟨c, -, ⟨ho, hi⟩ | ⟨-, ⟨ho, hi⟩ | hi | ⟨ho, hi⟩⟩⟩ := place_x h hn
  · rcases pick hi (by norm_num) (by norm_num) with ⟨-, e⟩ | ⟨rfl, -⟩
    · norm_num at e
    · exact .inr (.inl ⟨ho, hi⟩)
  · rcases pick hi (by norm_num) (by norm_num) with ⟨-, e⟩ | ⟨rfl, -⟩
    · norm_num at e
    · exact .inr (.inr ⟨ho, hi⟩)
  · rcases pick hi (by norm_num) (by norm_num) with ⟨-, e⟩ | ⟨-, e⟩ <;> norm_num at e
  · rcases pick hi (by norm_num) (by norm_num) with ⟨rfl, -⟩ | ⟨-, e⟩
    · exact .inl ⟨ho, by rw [hi]; push_cast; ring, c, rfl⟩
    · norm_num at e

theorem no_table_between {i : Nat} {x x' y : Rat} (h1 : -30 + 380 * (i : Rat) ≤ x) (h2 : x' ≤ 50 + 380 * (i : Rat)) :
    ∀ k r w, Tab ns k r w → ¬ PassesAt ns k r w x x' y := by
  rintro k r w - ⟨p1, p2, -, -⟩
  have e1 : (i : Rat) < k + 1 := by linarith
  have e2 : (k : Rat) < i := by linarith
  have : i < k + 1 := by exact_mod_cast e1
  have : k < i := by exact_mod_cast e2
  omega

/-- Vertical roads. -/
theorem vertical_road {n m : RouteNodeData} (hr : RoadBetween ns PL n m) (hx : m.location.x = n.location.x) :
    ∃ a b, (PL)[a]? = some n ∧ (PL)[b]? = some m ∧ ∃ d, (d = .up ∨ d = .down) ∧ (NeighbourIn ns PL d a b ∨ NeighbourIn ns PL d b a) := by
  obtain ⟨a, b, ha, hb, d, hd⟩ := hr
  refine ⟨a, b, ha, hb, d, ?_, hd⟩
  rcases hd with hd | hd
  · obtain ⟨ht, -⟩ := neighbour_ahead hd ha hb
    cases d
    · exact .inl rfl
    · exact .inr rfl
    · have := ht.2; exfalso; linarith
    · have := ht.2; exfalso; linarith
  · obtain ⟨ht, -⟩ := neighbour_ahead hd hb ha
    cases d
    · exact .inl rfl
    · exact .inr rfl
    · have := ht.2; exfalso; linarith
    · have := ht.2; exfalso; linarith

/-- Ends at the left and right side of a table are not on vertical roads. -/
theorem no_vertical {n m : RouteNodeData} (hr : RoadBetween ns PL n m) (hx : m.location.x = n.location.x)
    (ho : n.orientation = some .left ∨ n.orientation = some .right) : False := by
  obtain ⟨a, b, ha, hb, d, hd, hd' | hd'⟩ := vertical_road hr hx
  · obtain ⟨-, h1, -⟩ := neighbour_ahead hd' ha hb
    rcases hd with rfl | rfl <;> rcases ho with ho | ho <;> rcases h1 with h1 | h1 <;> rw [ho] at h1 <;> cases h1
  · obtain ⟨-, -, h1⟩ := neighbour_ahead hd' hb ha
    rcases hd with rfl | rfl <;> rcases ho with ho | ho <;> rcases h1 with h1 | h1 <;> rw [ho] at h1 <;> cases h1

/-- From an end between two tables one gets to the street, at the same height, and nowhere else. -/
theorem from_end (h : Ok ns cs) {i : Nat} {a b : Point} (hl : Linked ns cs a b) (ha : a.x = -30 + 380 * (i : Rat) ∨ a.x = 50 + 380 * (i : Rat))
    (hb1 : -30 + 380 * (i : Rat) ≤ b.x) (hb2 : b.x ≤ 50 + 380 * (i : Rat)) : b = ⟨10 + 380 * (i : Rat), a.y⟩ := by
  obtain ⟨n, m, rfl, rfl, hr⟩ := hl
  have hn := hr.left
  have hm := hr.symm.left
  have key : ∀ {n m : RouteNodeData}, RoadBetween ns PL n m → n.location.x = -30 + 380 * (i : Rat) →
      m.location.x = 50 + 380 * (i : Rat) → False := by
    intro n m hr hx hx'
    have hlt : n.location.x < m.location.x := by rw [hx, hx']; linarith
    rcases band h hr.left (i := i) (by linarith) (by linarith) with ⟨ho, -, c, rfl⟩ | ⟨-, e⟩ | ⟨-, e⟩
    · have hs := right_street h hr.left ho (c := c) (by rw [hx]; push_cast; ring)
      refine no_skip hr hlt (no_table_between (i := c + 1) (by linarith) (by linarith)) hs rfl rfl ?_ ?_
      · simp only; rw [hx]; push_cast; linarith
      · simp only; rw [hx']; push_cast; linarith
    · linarith
    · linarith
  rcases ha with ha | ha
  · rcases band h hn (i := i) (by linarith) (by linarith) with ⟨ho, -⟩ | ⟨-, e⟩ | ⟨-, e⟩
    · rcases band h hm hb1 hb2 with ⟨ho', e', -⟩ | ⟨-, e'⟩ | ⟨-, e'⟩
      · exfalso
        exact no_vertical hr (by rw [ha, e']) (.inr ho)
      · have := (road_right_ahead hr (by linarith)).1
        exact point_eq e' this
      · exact (key hr ha e').elim
    · linarith
    · linarith
  · rcases band h hn (i := i) (by linarith) (by linarith) with ⟨-, e, -⟩ | ⟨-, e⟩ | ⟨ho, -⟩
    · linarith
    · linarith
    · rcases band h hm hb1 hb2 with ⟨ho', e', -⟩ | ⟨-, e'⟩ | ⟨ho', e'⟩
      · exact (key hr.symm e' ha).elim
      · have := (road_right_ahead hr.symm (by linarith)).1
        exact point_eq e' this.symm
      · exfalso
        exact no_vertical hr (by rw [ha, e']) (.inl ho)

/-- A road along a street passes no other place. -/
theorem street_skip {i : Nat} {n m q : RouteNodeData} (hr : RoadBetween ns PL n m) (hx : n.location.x = 10 + 380 * (i : Rat))
    (hx' : m.location.x = n.location.x) (hq : q ∈ PL) (hqo : q.orientation = none)
    (hqx : q.location.x = n.location.x) (h1 : n.location.y < q.location.y) (h2 : q.location.y < m.location.y) : False := by
  have free : ∀ (d : Orientation) (p p' : Point), p.x = 10 + 380 * (i : Rat) → p'.x = p.x → ¬ Obstructed ns d p p' := by
    rintro d p p' hp hp' ⟨-, r, hr, t, t0, t1, h1, h2, -⟩
    obtain ⟨k, r', w, hk, rfl⟩ := mem_rects.mp hr
    simp only [inside, lerp, hp', sub_self, mul_zero, add_zero] at h1 h2
    rcases street_off (k := k) hp with h3 | h3 <;> linarith
  obtain ⟨a, b, ha, hb, d, hd, hd' | hd'⟩ := vertical_road hr hx'
  · obtain ⟨ht, o1, -⟩ := neighbour_ahead hd' ha hb
    rcases hd with rfl | rfl
    · have := ht.2; linarith
    · have hle := neighbour_le hd' ha hb hq ⟨⟨hqx, h1⟩, o1, .inl hqo⟩ (free _ _ _ hx hqx)
      simp only [distance, hx', hqx, sub_self, abs_zero, zero_add] at hle
      rw [abs_of_neg (by linarith), abs_of_neg (by linarith)] at hle
      linarith
  · obtain ⟨ht, o1, -⟩ := neighbour_ahead hd' hb ha
    rcases hd with rfl | rfl
    · have hle := neighbour_le hd' hb ha hq ⟨⟨hqx.trans hx'.symm, h2⟩, o1, .inl hqo⟩ (free _ _ _ (hx'.trans hx) (hqx.trans hx'.symm))
      simp only [distance, hx', hqx, sub_self, abs_zero, zero_add] at hle
      rw [abs_of_pos (by linarith), abs_of_pos (by linarith)] at hle
      linarith
    · have := ht.2; linarith

/-- Going along a street without coming back to a place one does not turn. -/
theorem street_turn (h : Ok ns cs) {i : Nat} {a b c : Point} (h1 : Linked ns cs a b) (h2 : Linked ns cs b c) (ha : a.x = 10 + 380 * (i : Rat))
    (hb : b.x = 10 + 380 * (i : Rat)) (hc : c.x = 10 + 380 * (i : Rat)) (hne : a ≠ c) : (a.y < b.y ∧ b.y < c.y) ∨ (c.y < b.y ∧ b.y < a.y) := by
  obtain ⟨n, m, rfl, rfl, hr⟩ := h1
  obtain ⟨m', k, hm', rfl, hr'⟩ := h2
  have hnn := street_none h hr.left ha
  have hmm := street_none h hr.symm.left hb
  have hkk := street_none h hr'.symm.left hc
  have e : m' = m := by
    have := street_none h hr'.left (i := i) (by rw [hm']; exact hb)
    obtain ⟨l, o⟩ := m
    obtain ⟨l', o'⟩ := m'
    simp only at hm' this hmm
    rw [hm', this, hmm]
  subst e
  have ne : ∀ {x y : RouteNodeData}, RoadBetween ns PL x y → y.location.x = x.location.x → x.location.y ≠ y.location.y := by
    intro x y hr hx e
    obtain ⟨a, b, ha, hb, d, hd, hd' | hd'⟩ := vertical_road hr hx
    · obtain ⟨ht, -⟩ := neighbour_ahead hd' ha hb
      rcases hd with rfl | rfl <;> have := ht.2 <;> linarith
    · obtain ⟨ht, -⟩ := neighbour_ahead hd' hb ha
      rcases hd with rfl | rfl <;> have := ht.2 <;> linarith
  have hy1 := ne hr (by rw [ha, hb])
  have hy2 := ne hr' (by rw [hb, hc])
  have hy3 : n.location.y ≠ k.location.y := fun e => hne (point_eq (by rw [ha, hc]) e)
  rcases lt_or_gt_of_ne hy1 with l1 | l1 <;> rcases lt_or_gt_of_ne hy2 with l2 | l2
  · exact .inl ⟨l1, l2⟩
  · exfalso
    rcases lt_or_gt_of_ne hy3 with l3 | l3
    · exact street_skip hr ha (by rw [ha, hb]) hr'.symm.left hkk (by rw [ha, hc]) l3 l2
    · exact street_skip hr'.symm hc (by rw [hb, hc]) hr.left hnn (by rw [ha, hc]) l3 l1
  · exfalso
    rcases lt_or_gt_of_ne hy3 with l3 | l3
    · exact street_skip hr' hb (by rw [hb, hc]) hr.left hnn (by rw [ha, hb]) l1 l3
    · exact street_skip hr.symm hb (by rw [ha, hb]) hr'.symm.left hkk (by rw [hb, hc]) l2 l3
  · exact .inr ⟨l2, l1⟩

theorem street_down_chain (h : Ok ns cs) {i : Nat} : ∀ (ps : List Point) (a b : Point), a.y < b.y → (a :: b :: ps).IsChain (Linked ns cs) →
    (∀ p ∈ a :: b :: ps, p.x = 10 + 380 * (i : Rat)) → (a :: b :: ps).Nodup → (a :: b :: ps).IsChain (fun p q => p.y < q.y) := by
  intro ps
  induction ps with
  | nil => intro a b hlt _ _ _; simpa using hlt
  | cons c ps ih =>
    intro a b hlt hc hx hn
    rw [List.isChain_cons_cons] at hc ⊢
    refine ⟨hlt, ?_⟩
    have hc2 := hc.2
    rw [List.isChain_cons_cons] at hc2
    have hn' := List.nodup_cons.mp hn
    refine ih b c ?_ hc.2 (fun p hp => hx p (List.mem_cons_of_mem _ hp)) hn'.2
    rcases street_turn h hc.1 hc2.1 (hx a (by simp)) (hx b (by simp)) (hx c (by simp)) (fun e => hn'.1 (by simp [e])) with ⟨-, h2⟩ | ⟨-, h2⟩
    · exact h2
    · linarith

theorem street_up_chain (h : Ok ns cs) {i : Nat} : ∀ (ps : List Point) (a b : Point), b.y < a.y → (a :: b :: ps).IsChain (Linked ns cs) →
    (∀ p ∈ a :: b :: ps, p.x = 10 + 380 * (i : Rat)) → (a :: b :: ps).Nodup → (a :: b :: ps).IsChain (fun p q => q.y < p.y) := by
  intro ps
  induction ps with
  | nil => intro a b hlt _ _ _; simpa using hlt
  | cons c ps ih =>
    intro a b hlt hc hx hn
    rw [List.isChain_cons_cons] at hc ⊢
    refine ⟨hlt, ?_⟩
    have hc2 := hc.2
    rw [List.isChain_cons_cons] at hc2
    have hn' := List.nodup_cons.mp hn
    refine ih b c ?_ hc.2 (fun p hp => hx p (List.mem_cons_of_mem _ hp)) hn'.2
    rcases street_turn h hc.1 hc2.1 (hx a (by simp)) (hx b (by simp)) (hx c (by simp)) (fun e => hn'.1 (by simp [e])) with ⟨h1, -⟩ | ⟨h1, -⟩
    · linarith
    · exact h1

/-- A path along a street runs in one direction. -/
theorem street_chain (h : Ok ns cs) {i : Nat} {ps : List Point} (hc : ps.IsChain (Linked ns cs)) (hx : ∀ p ∈ ps, p.x = 10 + 380 * (i : Rat))
    (hn : ps.Nodup) : ps.IsChain (fun p q => p.y < q.y) ∨ ps.IsChain (fun p q => q.y < p.y) := by
  match ps with
  | [] => exact .inl .nil
  | [a] => exact .inl (.singleton a)
  | a :: b :: ps =>
    have hne : a.y ≠ b.y := by
      intro e
      have hab : a = b := point_eq (by rw [hx a (by simp), hx b (by simp)]) e
      exact (List.nodup_cons.mp hn).1 (by simp [hab])
    rcases lt_or_gt_of_ne hne with hlt | hlt
    · exact .inl (street_down_chain h ps a b hlt hc hx hn)
    · exact .inr (street_up_chain h ps a b hlt hc hx hn)

/-- The part of a path from the street on. -/
theorem band_rest (h : Ok ns cs) {i : Nat} {b : Point} (hbx : b.x = -30 + 380 * (i : Rat) ∨ b.x = 50 + 380 * (i : Rat)) : ∀ (ps : List Point) (p : Point), p.x = 10 + 380 * (i : Rat) →
    (p :: ps).IsChain (Linked ns cs) → (p :: ps).Nodup → (p :: ps).getLast? = some b →
    (∀ z ∈ p :: ps, -30 + 380 * (i : Rat) ≤ z.x ∧ z.x ≤ 50 + 380 * (i : Rat)) →
    ∃ mid : List Point, p :: ps = mid ++ [b] ∧ (∀ z ∈ mid, z.x = 10 + 380 * (i : Rat)) ∧
      mid.head? = some p ∧ mid.getLast? = some ⟨10 + 380 * (i : Rat), b.y⟩ := by
  intro ps
  induction ps with
  | nil =>
    intro p hp _ _ hl _
    simp only [List.getLast?_singleton, Option.some.injEq] at hl
    rw [hl] at hp
    rcases hbx with hbx | hbx <;> linarith
  | cons q ps ih =>
    intro p hp hc hn hl hb
    rw [List.isChain_cons_cons] at hc
    rw [List.getLast?_cons_cons] at hl
    have hq := hb q (by simp)
    obtain ⟨-, m, hm, rfl⟩ := linked_mem hc.1
    have side : m.location.x = -30 + 380 * (i : Rat) ∨ m.location.x = 50 + 380 * (i : Rat) →
        ps = [] ∧ p.y = m.location.y := by
      intro hx
      have back : Linked ns cs m.location p := by
        obtain ⟨n, m', hp, hm', hr⟩ := hc.1
        exact ⟨m', n, hm', hp, hr.symm⟩
      have hpp := from_end h back hx (by rw [hp]; linarith) (by rw [hp]; linarith)
      cases ps with
      | nil => exact ⟨rfl, by rw [hpp]⟩
      | cons z ps =>
        exfalso
        have hc2 := hc.2
        rw [List.isChain_cons_cons] at hc2
        have hz := hb z (by simp)
        have hzz := from_end h hc2.1 hx hz.1 hz.2
        exact (List.nodup_cons.mp hn).1 (by rw [hpp, ← hzz]; simp)
    have last : m.location.x = -30 + 380 * (i : Rat) ∨ m.location.x = 50 + 380 * (i : Rat) → ∃ mid : List Point,
        p :: m.location :: ps = mid ++ [b] ∧ (∀ z ∈ mid, z.x = 10 + 380 * (i : Rat)) ∧ mid.head? = some p ∧
          mid.getLast? = some ⟨10 + 380 * (i : Rat), b.y⟩ := by
      intro e
      obtain ⟨rfl, hy⟩ := side e
      simp only [List.getLast?_singleton, Option.some.injEq] at hl
      refine ⟨[p], by rw [hl]; rfl, by simpa using hp, rfl, ?_⟩
      rw [List.getLast?_singleton]
      rw [hl] at hy
      exact congrArg some (point_eq hp hy)
    rcases band h hm hq.1 hq.2 with ⟨-, e, -⟩ | ⟨-, e⟩ | ⟨-, e⟩
    · exact last (.inl e)
    · obtain ⟨mid, h1, h2, h3, h4⟩ := ih m.location e hc.2 (List.nodup_cons.mp hn).2 hl (fun z hz => hb z (List.mem_cons_of_mem _ hz))
      refine ⟨p :: mid, by rw [h1]; rfl, ?_, rfl, ?_⟩
      · intro z hz
        rcases List.mem_cons.mp hz with rfl | hz
        · exact hp
        · exact h2 z hz
      · cases mid with
        | nil => cases h3
        | cons x mid => rw [List.getLast?_cons_cons]; exact h4
    · exact last (.inr e)

/-- A path that stays between two tables. -/
theorem band_path (h : Ok ns cs) {i : Nat} {a b : Point} {ps : List Point} (hc : ps.IsChain (Linked ns cs)) (hn : ps.Nodup)
    (hab : a ≠ b) (hax : a.x = -30 + 380 * (i : Rat) ∨ a.x = 50 + 380 * (i : Rat)) (hbx : b.x = -30 + 380 * (i : Rat) ∨ b.x = 50 + 380 * (i : Rat))
    (ha : ps.head? = some a) (hb : ps.getLast? = some b)
    (hband : ∀ z ∈ ps, -30 + 380 * (i : Rat) ≤ z.x ∧ z.x ≤ 50 + 380 * (i : Rat)) : Direct (10 + 380 * (i : Rat)) a b ps := by
  match ps, ha with
  | [p], ha =>
    cases ha
    exact absurd (Option.some.inj hb) hab
  | p :: q :: ps, ha =>
    cases ha
    rw [List.isChain_cons_cons] at hc
    have hq := hband q (by simp)
    have eq := from_end h hc.1 hax hq.1 hq.2
    obtain ⟨mid, h1, h2, h3, h4⟩ := band_rest h hbx ps q (by rw [eq]) hc.2 (List.nodup_cons.mp hn).2
      (by rw [List.getLast?_cons_cons] at hb; exact hb) (fun z hz => hband z (List.mem_cons_of_mem _ hz))
    have hmc : mid.IsChain (Linked ns cs) := by
      have := hc.2
      rw [h1] at this
      exact (List.isChain_append.mp this).1
    have hmn : mid.Nodup := by
      have := (List.nodup_cons.mp hn).2
      rw [h1] at this
      exact (List.nodup_append.mp this).1
    refine ⟨mid, by rw [h1]; rfl, by rw [h3, eq], h4, h2, ?_⟩
    have t1 : IsTrans Point (fun p q => p.y < q.y) := ⟨fun _ _ _ => lt_trans⟩
    have t2 : IsTrans Point (fun p q => q.y < p.y) := ⟨fun _ _ _ h1 h2 => lt_trans h2 h1⟩
    rcases street_chain h (i := i) hmc h2 hmn with h5 | h5
    · exact .inl (List.isChain_iff_pairwise.mp h5)
    · exact .inr (List.isChain_iff_pairwise.mp h5)

/-! ## Shortest routes -/

theorem follows_linked {w : List Nat} {ps : List Point} (hf : Follows ns PL w ps) :
    ps.IsChain (Linked ns cs) ∧ ∀ p ∈ ps, ∃ n ∈ PL, n.location = p := by
  obtain ⟨h1, h2⟩ := hf
  rw [List.forall₂_iff_get] at h2
  obtain ⟨hlen, hget⟩ := h2
  constructor
  · rw [List.isChain_iff_getElem]
    intro k hk
    obtain ⟨n, hn, en⟩ := hget k (by omega) (by omega)
    obtain ⟨m, hm, em⟩ := hget (k + 1) (by omega) (by omega)
    simp only [List.get_eq_getElem] at hn en hm em
    exact ⟨n, m, en, em, _, _, hn, hm, h1 k _ _ (List.getElem?_eq_getElem (by omega)) (List.getElem?_eq_getElem (by omega))⟩
  · intro p hp
    obtain ⟨k, hk, rfl⟩ := List.getElem_of_mem hp
    obtain ⟨n, hn, en⟩ := hget k (hlen ▸ hk) hk
    exact ⟨n, List.mem_of_getElem? hn, en⟩

/-- The places next to the gap between two tables are 150 away from it. -/
theorem off_band (h : Ok ns cs) {n : RouteNodeData} (hn : n ∈ PL) (i : Nat) :
    (n.location.x < -30 + 380 * (i : Rat) → n.location.x ≤ -180 + 380 * (i : Rat)) ∧
    (50 + 380 * (i : Rat) < n.location.x → 200 + 380 * (i : Rat) ≤ n.location.x) := by
  have step : ∀ {c : Nat} {a : Rat}, (a = 10 ∨ a = 50 ∨ a = 200 ∨ a = 350) → n.location.x = a + 380 * (c : Rat) →
      (n.location.x < -30 + 380 * (i : Rat) → n.location.x ≤ -180 + 380 * (i : Rat)) ∧
      (50 + 380 * (i : Rat) < n.location.x → 200 + 380 * (i : Rat) ≤ n.location.x) := by
    intro c a ha hx
    rcases Nat.lt_trichotomy c i with hik | hik | hik
    · rcases Nat.lt_or_ge (c + 1) i with h3 | h3
      · have : (c : Rat) + 2 ≤ i := by exact_mod_cast h3
        constructor <;> intro hlt <;> rcases ha with rfl | rfl | rfl | rfl <;> linarith
      · have e : i = c + 1 := by omega
        subst e
        push_cast
        constructor <;> intro hlt <;> rcases ha with rfl | rfl | rfl | rfl <;> linarith
    · subst hik
      constructor <;> intro hlt <;> rcases ha with rfl | rfl | rfl | rfl <;> linarith
    · have : (i : Rat) + 1 ≤ c := by exact_mod_cast hik
      constructor <;> intro hlt <;> rcases ha with rfl | rfl | rfl | rfl <;> linarith
  obtain ⟨c, -, ⟨-, hi⟩ | ⟨-, ⟨-, hi⟩ | hi | ⟨-, hi⟩⟩⟩ := place_x h hn <;> exact step (by norm_num) hi

/-- The way from one table to the next. -/
theorem gap_route (h : Ok ns cs) {c : Nat} {y y' : Rat} (h1 : (⟨350 + 380 * (c : Rat), y⟩, .right) ∈ ES)
    (h2 : (⟨430 + 380 * (c : Rat), y'⟩, .left) ∈ ES) :
    ∃ w ps, Follows ns PL w ps ∧ ps.head? = some ⟨350 + 380 * (c : Rat), y⟩ ∧ ps.getLast? = some ⟨430 + 380 * (c : Rat), y'⟩ ∧
      (routeCost ps : Rat) ≤ 80 + |y' - y| := by
  have p1 : (⟨⟨350 + 380 * (c : Rat), y⟩, some .right⟩ : RouteNodeData) ∈ PL := mem_places.mpr (.inr ⟨_, rfl, h1⟩)
  have e2 : (430 + 380 * (c : Rat)) = 50 + 380 * ((c + 1 : Nat) : Rat) := by push_cast; ring
  rw [e2] at h2 ⊢
  have p2 : (⟨⟨50 + 380 * ((c + 1 : Nat) : Rat), y'⟩, some .left⟩ : RouteNodeData) ∈ PL := mem_places.mpr (.inr ⟨_, rfl, h2⟩)
  obtain ⟨s1, k1, t1, l1⟩ := right_trip h p1
  obtain ⟨s2, k2, t2, l2⟩ := left_trip h p2
  obtain ⟨k3, t3, l3⟩ := along h s1 s2
  obtain ⟨i, w, p, ps, -, hp, hf, hl, hcost⟩ := ((t1.symm.append t3).append t2).follows (places_nodup _ _)
  refine ⟨_, _, hf, by rw [hp]; rfl, hl, ?_⟩
  rw [hcost]
  push_cast
  linarith

/-- A cheapest route between ends of two tables side by side, if other ends are further apart. -/
theorem gap_shortest (h : Ok ns cs) {c : Nat} {y y' : Rat} (h1 : (⟨350 + 380 * (c : Rat), y⟩, .right) ∈ ES)
    (h2 : (⟨430 + 380 * (c : Rat), y'⟩, .left) ∈ ES) {w : List Nat} {ps : List Point} (hf : Follows ns PL w ps) (hn : ps.Nodup)
    (hmin : ∀ w' ps', Follows ns PL w' ps' → ps'.head? = some ⟨350 + 380 * (c : Rat), y⟩ →
      ps'.getLast? = some ⟨430 + 380 * (c : Rat), y'⟩ → routeCost ps ≤ routeCost ps')
    {a b : Point} (ha : ps.head? = some a) (hb : ps.getLast? = some b) {r d : Nat} (hd : d ≤ 23) (hs : Strip ns cs r d (min y y') (max y y'))
    (hfar : (a = ⟨350 + 380 * (c : Rat), y⟩ ∧ b = ⟨430 + 380 * (c : Rat), y'⟩) ∨
      80 + |y' - y| < |b.x - a.x| + |Loss.clip (min y y') (max y y') b.y - Loss.clip (min y y') (max y y') a.y| - (12 * d + 25 / 2)) :
    Direct (390 + 380 * (c : Rat)) ⟨350 + 380 * (c : Rat), y⟩ ⟨430 + 380 * (c : Rat), y'⟩ ps := by
  obtain ⟨hc, hmem⟩ := follows_linked hf
  obtain ⟨w', ps', hf', ha', hb', hcost⟩ := gap_route h h1 h2
  have hle : (routeCost ps : Rat) ≤ 80 + |y' - y| := by
    have : (routeCost ps : Rat) ≤ routeCost ps' := by exact_mod_cast hmin w' ps' hf' ha' hb'
    linarith
  have low := fun p hp => path_lower (p := p) h hs hc ha hb hp
  have hd' : (d : Rat) ≤ 23 := by exact_mod_cast hd
  have hmema : a ∈ ps := List.mem_of_mem_head? ha
  rcases hfar with ⟨rfl, rfl⟩ | hfar
  · have e1 : (390 + 380 * (c : Rat)) = 10 + 380 * ((c + 1 : Nat) : Rat) := by push_cast; ring
    have e2 : -30 + 380 * ((c + 1 : Nat) : Rat) = 350 + 380 * (c : Rat) := by push_cast; ring
    have e3 : 50 + 380 * ((c + 1 : Nat) : Rat) = 430 + 380 * (c : Rat) := by push_cast; ring
    rw [e1]
    refine band_path h hc hn (fun e => ?_) (.inl e2.symm) (.inr e3.symm) ha hb ?_
    · have := congrArg Point.x e
      simp only at this
      linarith
    intro z hz
    rw [e2, e3]
    obtain ⟨n, hnn, rfl⟩ := hmem z hz
    have hlow := low _ hz
    simp only at hlow
    rw [Loss.clip_id (min_le_left _ _) (le_max_left _ _), Loss.clip_id (min_le_right _ _) (le_max_right _ _)] at hlow
    obtain ⟨o1, o2⟩ := off_band h hnn (c + 1)
    rw [e2] at o1
    rw [e3] at o2
    push_cast at o1 o2
    constructor
    · by_contra hlt
      push Not at hlt
      have := o1 hlt
      rw [abs_of_neg (by linarith : n.location.x - (350 + 380 * (c : Rat)) < 0),
        abs_of_pos (by linarith : 0 < 430 + 380 * (c : Rat) - n.location.x)] at hlow
      linarith
    · by_contra hlt
      push Not at hlt
      have := o2 hlt
      rw [abs_of_pos (by linarith : 0 < n.location.x - (350 + 380 * (c : Rat))),
        abs_of_neg (by linarith : 430 + 380 * (c : Rat) - n.location.x < 0)] at hlow
      linarith
  · have := low a hmema
    rw [sub_self, abs_zero] at this
    linarith

/-! ## The ends -/

theorem ends_right (r : NodeRef) {a : Point} {o : Orientation} (h : (a, o) ∈ endsOf ns r) :
    a = sideMiddle (refRect ns r) .right ∨ a.x ≤ (sideMiddle (refRect ns r) .right).x - 150 ∧
      (∀ k j, r = .column k j → |a.y - (sideMiddle (refRect ns r) .right).y| ≤ 35 / 2) := by
  simp only [endsOf, List.mem_map, Prod.mk.injEq] at h
  obtain ⟨o', ho, rfl, rfl⟩ := h
  cases r with
  | table k =>
    cases o' <;> simp only [refRect, tableRect, sideMiddle, reduceCtorEq, false_implies, implies_true, and_true]
    · right; linarith
    · right; linarith
    · right; linarith
    · exact .inl trivial
  | column k j =>
    have hup : o' ≠ .up := by
      rintro rfl
      simp only [sidesOf] at ho
      split at ho <;> simp at ho
    cases o' <;> simp only [refRect, lineRect, sideMiddle]
    · exact absurd rfl hup
    · right
      refine ⟨by linarith, fun _ _ _ => ?_⟩
      rw [show rowTop ns (k / 3) + 35 * ((j + 1 : Nat) : Rat) + 35 - (rowTop ns (k / 3) + 35 * ((j + 1 : Nat) : Rat) + 35 / 2) = 35 / 2 by ring]
      norm_num
    · right
      refine ⟨by linarith, fun _ _ _ => ?_⟩
      rw [sub_self]
      norm_num
    · exact .inl trivial

theorem ends_left (r : NodeRef) {a : Point} {o : Orientation} (h : (a, o) ∈ endsOf ns r) :
    a = sideMiddle (refRect ns r) .left ∨ (sideMiddle (refRect ns r) .left).x + 150 ≤ a.x ∧
      (∀ k j, r = .column k j → |a.y - (sideMiddle (refRect ns r) .left).y| ≤ 35 / 2) := by
  simp only [endsOf, List.mem_map, Prod.mk.injEq] at h
  obtain ⟨o', ho, rfl, rfl⟩ := h
  cases r with
  | table k =>
    cases o' <;> simp only [refRect, tableRect, sideMiddle, reduceCtorEq, false_implies, implies_true, and_true]
    · right; linarith
    · right; linarith
    · exact .inl trivial
    · right; linarith
  | column k j =>
    have hup : o' ≠ .up := by
      rintro rfl
      simp only [sidesOf] at ho
      split at ho <;> simp at ho
    cases o' <;> simp only [refRect, lineRect, sideMiddle]
    · exact absurd rfl hup
    · right
      refine ⟨by linarith, fun _ _ _ => ?_⟩
      rw [show rowTop ns (k / 3) + 35 * ((j + 1 : Nat) : Rat) + 35 - (rowTop ns (k / 3) + 35 * ((j + 1 : Nat) : Rat) + 35 / 2) = 35 / 2 by ring]
      norm_num
    · exact .inl trivial
    · right
      refine ⟨by linarith, fun _ _ _ => ?_⟩
      rw [sub_self]
      norm_num

theorem has_right (r : NodeRef) : (sideMiddle (refRect ns r) .right, .right) ∈ endsOf ns r := by
  refine List.mem_map.mpr ⟨.right, ?_, rfl⟩
  cases r with
  | table k => simp [sidesOf]
  | column k j => simp only [sidesOf]; split <;> simp

theorem has_left (r : NodeRef) : (sideMiddle (refRect ns r) .left, .left) ∈ endsOf ns r := by
  refine List.mem_map.mpr ⟨.left, ?_, rfl⟩
  cases r with
  | table k => simp [sidesOf]
  | column k j => simp only [sidesOf]; split <;> simp

theorem right_x (r : NodeRef) : (sideMiddle (refRect ns r) .right).x = 350 + 380 * ((tableNumber r % 3 : Nat) : Rat) := by
  cases r <;> simp only [refRect, tableRect, lineRect, sideMiddle, tableNumber] <;> ring

theorem left_x (r : NodeRef) : (sideMiddle (refRect ns r) .left).x = 50 + 380 * ((tableNumber r % 3 : Nat) : Rat) := by
  cases r <;> simp only [refRect, tableRect, lineRect, sideMiddle, tableNumber]

/-- The ends at the left and right are beside the table. -/
theorem ref_row {r : NodeRef} (hv : ValidRef ns r) {o : Orientation} (ho : o = .left ∨ o = .right) :
    rowTop ns (tableNumber r / 3) ≤ (sideMiddle (refRect ns r) o).y ∧ (sideMiddle (refRect ns r) o).y ≤ rowTop ns (tableNumber r / 3 + 1) := by
  have hrow : ∀ r, rowTop ns (r + 1) = rowTop ns r + 35 * (tallest ns r : Rat) + 80 := fun _ => rfl
  cases r with
  | table k =>
    obtain ⟨n, hn⟩ := hv
    have hle : (n : Rat) ≤ tallest ns (k / 3) := by exact_mod_cast (tab_of hn).le
    have h0 : (0 : Rat) ≤ n := Nat.cast_nonneg n
    rcases ho with rfl | rfl <;> simp only [refRect, hn, Option.getD_some, sideMiddle, tableRect, tableNumber, hrow] <;>
      constructor <;> linarith
  | column k j =>
    obtain ⟨n, hn, hj⟩ := hv
    have hle : (n : Rat) ≤ tallest ns (k / 3) := by exact_mod_cast (tab_of hn).le
    have hj' : (j : Rat) + 2 ≤ n := by exact_mod_cast hj
    have h0 : (0 : Rat) ≤ j := Nat.cast_nonneg j
    rcases ho with rfl | rfl <;> simp only [refRect, sideMiddle, lineRect, tableNumber, hrow] <;> push_cast <;>
      constructor <;> linarith

/-- A cheapest route from a table, or a column of it, to a table in the next column of tables, or a column of it. -/
theorem side_by_side (h : Ok ns cs) {s t : NodeRef} (hst : tableNumber t % 3 = tableNumber s % 3 + 1) {r d : Nat} (hd : d ≤ 8)
    (hrs : r ≤ tableNumber s / 3 ∧ tableNumber s / 3 ≤ r + d) (hrt : r ≤ tableNumber t / 3 ∧ tableNumber t / 3 ≤ r + d)
    (hvs : ValidRef ns s) (hvt : ValidRef ns t) (hs : ∀ x ∈ endsOf ns s, x ∈ ES) (ht : ∀ x ∈ endsOf ns t, x ∈ ES)
    (hH : (sideMiddle (refRect ns s) .right).y = (sideMiddle (refRect ns t) .left).y ∨
      (∃ k j, s = .column k j) ∧ ∃ k j, t = .column k j)
    {ps : List Point} (hr : ∃ w, Follows ns PL w ps) (hn : ps.Nodup) {a b : Point} {o o' : Orientation} (ha : ps.head? = some a)
    (hb : ps.getLast? = some b) (hae : (a, o) ∈ endsOf ns s) (hbe : (b, o') ∈ endsOf ns t)
    (hmin : ∀ w' ps' a' b' u u', Follows ns PL w' ps' → ps'.head? = some a' → ps'.getLast? = some b' → (a', u) ∈ endsOf ns s →
      (b', u') ∈ endsOf ns t → routeCost ps ≤ routeCost ps') :
    Direct ((sideMiddle (refRect ns s) .right).x + 40) (sideMiddle (refRect ns s) .right) (sideMiddle (refRect ns t) .left) ps := by
  obtain ⟨w, hf⟩ := hr
  have e1 := right_x (ns := ns) s
  have e2 : (sideMiddle (refRect ns t) .left).x = 430 + 380 * ((tableNumber s % 3 : Nat) : Rat) := by
    rw [left_x, hst]
    push_cast; ring
  have a1 := hs _ (has_right s)
  have b1 := ht _ (has_left t)
  have ra := ref_row hvs (.inr rfl : (Orientation.right = .left ∨ Orientation.right = .right))
  have rb := ref_row hvt (.inl rfl : (Orientation.left = .left ∨ Orientation.left = .right))
  have ra : rowTop ns r ≤ _ ∧ _ ≤ rowTop ns (r + d + 1) :=
    ⟨(rowTop_mono ns _ _ hrs.1).trans ra.1, ra.2.trans (rowTop_mono ns _ _ (by omega))⟩
  have rb : rowTop ns r ≤ _ ∧ _ ≤ rowTop ns (r + d + 1) :=
    ⟨(rowTop_mono ns _ _ hrt.1).trans rb.1, rb.2.trans (rowTop_mono ns _ _ (by omega))⟩
  have hd' : (d : Rat) ≤ 8 := by exact_mod_cast hd
  have fa := ends_right s hae
  have fb := ends_left t hbe
  have m1 := fun w' ps' (hf' : Follows ns PL w' ps') h1 h2 => hmin w' ps' _ _ _ _ hf' h1 h2 (has_right s) (has_left t)
  generalize hA : sideMiddle (refRect ns s) .right = A at *
  generalize hB : sideMiddle (refRect ns t) .left = B at *
  obtain ⟨xa, ya⟩ := A
  obtain ⟨xb, yb⟩ := B
  simp only at e1 e2 hH
  subst e1 e2
  have hstrip : Strip ns cs r d (min ya yb) (max ya yb) := by
    have pa : (⟨⟨350 + 380 * ((tableNumber s % 3 : Nat) : Rat), ya⟩, some .right⟩ : RouteNodeData) ∈ PL := mem_places.mpr (.inr ⟨_, rfl, a1⟩)
    have pb : (⟨⟨430 + 380 * ((tableNumber s % 3 : Nat) : Rat), yb⟩, some .left⟩ : RouteNodeData) ∈ PL := mem_places.mpr (.inr ⟨_, rfl, b1⟩)
    refine ⟨min_le_max, le_min ra.1 rb.1, max_le ra.2 rb.2, ?_, ?_⟩
    · rcases min_choice ya yb with e | e <;> rw [e]
      · exact ⟨_, pa, rfl⟩
      · exact ⟨_, pb, rfl⟩
    · rcases max_choice ya yb with e | e <;> rw [e]
      · exact ⟨_, pa, rfl⟩
      · exact ⟨_, pb, rfl⟩
  have ex : (350 + 380 * ((tableNumber s % 3 : Nat) : Rat)) + 40 = 390 + 380 * ((tableNumber s % 3 : Nat) : Rat) := by ring
  simp only [ex]
  refine gap_shortest h a1 b1 hf hn m1 ha hb (by omega) hstrip ?_
  have far : ∀ (ea eb : Rat), |a.y - ya| ≤ ea → |b.y - yb| ≤ eb → |yb - ya| - ea - eb ≤
      |Loss.clip (min ya yb) (max ya yb) b.y - Loss.clip (min ya yb) (max ya yb) a.y| := by
    intro ea eb h1 h2
    have n1 := Loss.clip_near (min_le_left ya yb) (le_max_left ya yb) a.y
    have n2 := Loss.clip_near (min_le_right ya yb) (le_max_right ya yb) b.y
    have t1 := abs_sub_le yb (Loss.clip (min ya yb) (max ya yb) b.y) ya
    have t2 := abs_sub_le (Loss.clip (min ya yb) (max ya yb) b.y) (Loss.clip (min ya yb) (max ya yb) a.y) ya
    rw [abs_sub_comm yb (Loss.clip _ _ _)] at t1
    linarith
  have hcol : (∃ k j, s = .column k j) ∧ (∃ k j, t = .column k j) ∨ yb = ya := by
    rcases hH with e | e
    · exact .inr e.symm
    · exact .inl e
  simp only at fa fb
  have hx0 := abs_nonneg (Loss.clip (min ya yb) (max ya yb) b.y - Loss.clip (min ya yb) (max ya yb) a.y)
  rcases fa with rfl | ⟨fa, ga⟩ <;> rcases fb with rfl | ⟨fb, gb⟩
  · exact .inl ⟨rfl, rfl⟩
  · right
    simp only at *
    rw [abs_of_pos (by linarith : (0 : Rat) < b.x - (350 + 380 * ((tableNumber s % 3 : Nat) : Rat)))]
    rcases hcol with ⟨-, k, j, ht⟩ | e
    · have := far 0 (35 / 2) (by simp) (gb k j ht)
      linarith
    · have e0 : |yb - ya| = 0 := by rw [e, sub_self, abs_zero]
      linarith
  · right
    simp only at *
    rw [abs_of_pos (by linarith : (0 : Rat) < 430 + 380 * ((tableNumber s % 3 : Nat) : Rat) - a.x)]
    rcases hcol with ⟨⟨k, j, hs⟩, -⟩ | e
    · have := far (35 / 2) 0 (ga k j hs) (by simp)
      linarith
    · have e0 : |yb - ya| = 0 := by rw [e, sub_self, abs_zero]
      linarith
  · right
    rw [abs_of_pos (by linarith : (0 : Rat) < b.x - a.x)]
    rcases hcol with ⟨⟨k, j, hs⟩, k', j', ht⟩ | e
    · have := far (35 / 2) (35 / 2) (ga k j hs) (gb k' j' ht)
      linarith
    · have e0 : |yb - ya| = 0 := by rw [e, sub_self, abs_zero]
      linarith

end Grid
end Seiren
