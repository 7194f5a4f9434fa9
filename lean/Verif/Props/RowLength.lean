import Verif.Proofs.Neighbours
import Verif.Props.LongWay
import Verif.Props.Neighbours
/-! # C74: how much longer than necessary a line can be

The search rounds the length of each segment down.  What is lost that way depends on the number of rows of tables only: half a unit for
each segment between a height that is a whole number and one that is not, and on the streets there are few heights of the first kind. -/

namespace Seiren
open Spec Grid
namespace Grid
variable {ns : List Nat} {cs : List (NodeRef × NodeRef)}

local notation "ES" => allEnds ns cs
local notation "PL" => places ns (allEnds ns cs)

/-- The whole numbers among the heights of places on streets. -/
def StreetMark (ns : List Nat) (y : Rat) : Prop :=
  ∃ c r m, Tab ns c r m ∧ (y = rowTop ns r - 40 ∨ y = rowTop ns r + 35 * (m : Rat) + 40 ∨
    ∃ i : Nat, m = 2 * i ∧ y = rowTop ns r + 35 * (i : Rat))

theorem side_height (h : Ok ns cs) {p : Point} {o : Orientation} (hp : (p, o) ∈ ES) (ho : o = .left ∨ o = .right) :
    StreetMark ns p.y ∨ Half p.y := by
  have key : ∀ r, ValidRef ns r → (p, o) ∈ endsOf ns r → StreetMark ns p.y ∨ Half p.y := by
    intro r hr hp
    simp only [endsOf, List.mem_map, Prod.mk.injEq] at hp
    obtain ⟨o', -, rfl, rfl⟩ := hp
    cases r with
    | table k =>
      obtain ⟨n, hn⟩ := hr
      have ht := tab_of hn
      have mid : StreetMark ns (rowTop ns (k / 3) + 35 * (n : Rat) / 2) ∨ Half (rowTop ns (k / 3) + 35 * (n : Rat) / 2) := by
        rcases Nat.even_or_odd' n with ⟨i, hi | hi⟩
        · exact .inl ⟨_, _, _, ht, .inr (.inr ⟨i, hi, by rw [hi]; push_cast; ring⟩)⟩
        · obtain ⟨z, hz⟩ := rowTop_int ns (k / 3)
          exact .inr ⟨z + 35 * (i : Int) + 17, by rw [hi, hz]; push_cast; ring⟩
      rcases ho with rfl | rfl <;> simp only [refRect, hn, Option.getD_some, sideMiddle, tableRect] <;> exact mid
    | column k j =>
      obtain ⟨z, hz⟩ := rowTop_int ns (k / 3)
      have mid : Half (rowTop ns (k / 3) + 35 * ((j + 1 : Nat) : Rat) + 35 / 2) :=
        ⟨z + 35 * ((j + 1 : Nat) : Int) + 17, by rw [hz]; push_cast; ring⟩
      rcases ho with rfl | rfl <;> simp only [refRect, sideMiddle, lineRect] <;> exact .inr mid
  simp only [allEnds, List.mem_flatMap, List.mem_append] at hp
  obtain ⟨c, hc, hp | hp⟩ := hp
  · exact key _ (h.valid c hc).1 hp
  · exact key _ (h.valid c hc).2 hp

theorem corner_mark {j : Point} (hj : j ∈ corners ns) : StreetMark ns j.y := by
  obtain ⟨c, r, m, hm, -, hy | hy⟩ := mem_corners.mp hj
  · exact ⟨c, r, m, hm, .inl hy⟩
  · exact ⟨c, r, m, hm, .inr (.inl hy)⟩

theorem street_height (h : Ok ns cs) {n : RouteNodeData} (hn : n ∈ PL) (ho : n.orientation = none) :
    StreetMark ns n.location.y ∨ Half n.location.y := by
  rcases mem_places.mp hn with ⟨-, hc⟩ | ⟨o, ho', hc⟩
  · obtain ⟨-, hc | ⟨e, o, j, hc, hj, hs, hp⟩⟩ := mem_crossings.mp hc
    · exact .inl (corner_mark hc)
    · rw [hp]
      cases o <;> simp only [crossingAt]
      · exact .inl (corner_mark hj)
      · exact .inl (corner_mark hj)
      · exact side_height h hc (.inl rfl)
      · exact side_height h hc (.inr rfl)
  · rw [ho] at ho'; cases ho'

theorem StreetMark.int {y : Rat} (h : StreetMark ns y) : ∃ i : Int, y = i := by
  obtain ⟨c, r, m, -, hy⟩ := h
  obtain ⟨z, hz⟩ := rowTop_int ns r
  rcases hy with hy | hy | ⟨i, -, hy⟩
  · exact ⟨z - 40, by rw [hy, hz]; push_cast; ring⟩
  · exact ⟨z + 35 * (m : Int) + 40, by rw [hy, hz]; push_cast; ring⟩
  · exact ⟨z + 35 * (i : Int), by rw [hy, hz]; push_cast; ring⟩

/-- The points of the streets at these heights: 28 for each row. -/
def streetMarks (ns : List Nat) : List Point :=
  (List.range ((ns.length + 2) / 3)).flatMap fun r => (List.range 4).flatMap fun i : Nat =>
    let mark (c : Nat) : List Rat := let m : Rat := (ns[3 * r + c]?.getD 0 : Nat)
      [rowTop ns r + 35 * m + 40, rowTop ns r + 35 * m / 2]
    ((rowTop ns r - 40) :: mark 0 ++ mark 1 ++ mark 2).map fun y => ⟨10 + 380 * (i : Rat), y⟩

theorem streetMarks_length (ns : List Nat) : (streetMarks ns).length = 28 * ((ns.length + 2) / 3) := by
  unfold streetMarks
  generalize (ns.length + 2) / 3 = R
  induction R with
  | zero => rfl
  | succ R ih =>
    rw [List.range_succ (n := R), List.flatMap_append, List.length_append, ih]
    simp [List.range_succ]
    omega

theorem mem_streetMarks {p : Point} {i : Nat} (hi : i ≤ 3) (hx : p.x = 10 + 380 * (i : Rat)) (hy : StreetMark ns p.y) : p ∈ streetMarks ns := by
  obtain ⟨c, r, m, ht, hy⟩ := hy
  have hlt : 3 * r + c < ns.length := (List.getElem?_eq_some_iff.mp ht.2).1
  have hm : ns[3 * r + c]?.getD 0 = m := by rw [ht.2]; rfl
  refine List.mem_flatMap.mpr ⟨r, List.mem_range.mpr (by omega), List.mem_flatMap.mpr ⟨i, List.mem_range.mpr (by omega), ?_⟩⟩
  refine List.mem_map.mpr ⟨p.y, ?_, point_eq hx.symm rfl⟩
  have hy' : p.y = rowTop ns r - 40 ∨ p.y = rowTop ns r + 35 * (m : Rat) + 40 ∨ p.y = rowTop ns r + 35 * (m : Rat) / 2 := by
    rcases hy with hy | hy | ⟨i, rfl, hy⟩
    · exact .inl hy
    · exact .inr (.inl hy)
    · exact .inr (.inr (by rw [hy]; push_cast; ring))
  rcases col3 ht.1 with rfl | rfl | rfl <;> simp only [hm, List.mem_append, List.mem_cons, List.not_mem_nil, or_false] <;> tauto

/-- A segment of broken length has an end at one of these points. -/
theorem broken (h : Ok ns cs) {a b : Point} (hl : Linked ns cs a b) (hd : (distance a b).den ≠ 1) : a ∈ streetMarks ns ∨ b ∈ streetMarks ns := by
  obtain ⟨n, m, rfl, rfl, hr⟩ := hl
  have whole : ∀ z : Int, distance n.location m.location ≠ z := fun z e => hd (by rw [e]; exact Rat.den_intCast z)
  have hn := hr.left
  have hm := hr.symm.left
  have hor : m.location.y = n.location.y ∨ m.location.x = n.location.x := by
    obtain ⟨a, b, ha, hb, d, hd | hd⟩ := hr
    · obtain ⟨ht, -⟩ := neighbour_ahead hd ha hb
      cases d
      · exact .inr ht.1
      · exact .inr ht.1
      · exact .inl ht.1
      · exact .inl ht.1
    · obtain ⟨ht, -⟩ := neighbour_ahead hd hb ha
      cases d
      · exact .inr ht.1.symm
      · exact .inr ht.1.symm
      · exact .inl ht.1.symm
      · exact .inl ht.1.symm
  rcases hor with e | e
  · exfalso
    obtain ⟨i, hi⟩ := place_x_int h hn
    obtain ⟨j, hj⟩ := place_x_int h hm
    refine whole |i - j| ?_
    rw [distance, e, sub_self, abs_zero, add_zero, hi, hj]
    push_cast; rfl
  · have hdist : distance n.location m.location = |n.location.y - m.location.y| := by rw [distance, e, sub_self, abs_zero, zero_add]
    obtain ⟨i, hi3, ⟨ho, hi⟩ | ⟨-, ⟨ho, -⟩ | hi | ⟨ho, -⟩⟩⟩ := place_x h hn
    · have ho' := street_none h hm (i := i) (by rw [e, hi])
      rcases street_height h hn ho with h1 | ⟨u, h1⟩
      · exact .inl (mem_streetMarks hi3 hi h1)
      · rcases street_height h hm ho' with h2 | ⟨v, h2⟩
        · exact .inr (mem_streetMarks hi3 (by rw [e, hi]) h2)
        · exfalso
          refine whole |u - v| ?_
          rw [hdist, h1, h2, add_sub_add_right_eq_sub]
          push_cast; rfl
    · exact (no_vertical hr e (.inl ho)).elim
    · exfalso
      obtain ⟨u, h1⟩ := mid_int h hn hi
      obtain ⟨v, h2⟩ := mid_int h hm (c := i) (by rw [e, hi])
      refine whole |u - v| ?_
      rw [hdist, h1, h2]
      push_cast; rfl
    · exact (no_vertical hr e (.inr ho)).elim

theorem halves_count (h : Ok ns cs) : ∀ (ps : List Point) (a : Point), (a :: ps).IsChain (Linked ns cs) →
    halves (a :: ps) + (if a ∈ streetMarks ns then 1 else 0) ≤ 2 * ((a :: ps).filter (· ∈ streetMarks ns)).length := by
  intro ps
  induction ps with
  | nil =>
    intro a _
    by_cases ha : a ∈ streetMarks ns <;> simp [halves, ha]
  | cons b ps ih =>
    intro a hc
    rw [List.isChain_cons_cons] at hc
    have := ih b hc.2
    have hb := broken h hc.1
    rw [halves, List.filter_cons]
    by_cases hd : (distance a b).den = 1
    · rw [if_pos hd]
      by_cases ha : a ∈ streetMarks ns
      · simp only [ha, decide_true, if_true, List.length_cons]; omega
      · simp only [ha, decide_false, if_false]; simp; omega
    · rw [if_neg hd]
      by_cases ha : a ∈ streetMarks ns
      · simp only [ha, decide_true, if_true, List.length_cons]; omega
      · have hb : b ∈ streetMarks ns := (hb hd).resolve_left ha
        rw [if_pos hb] at this
        simp only [ha, decide_false, if_false]; simp; omega

/-- A path that comes to no point twice has at most 56 segments of broken length for each row. -/
theorem halves_le (h : Ok ns cs) {ps : List Point} (hc : ps.IsChain (Linked ns cs)) (hn : ps.Nodup) :
    halves ps ≤ 56 * ((ns.length + 2) / 3) := by
  cases ps with
  | nil => simp [halves]
  | cons a ps =>
    have h1 := halves_count h ps a hc
    have h2 := (List.subperm_of_subset (hn.filter (· ∈ streetMarks ns)) (l₂ := streetMarks ns)
      (fun p hp => by simpa using (List.mem_filter.mp hp).2)).length_le
    rw [streetMarks_length] at h2
    omega

end Grid

/-- **C74.** What holds instead of the full claim, in terms of the module alone: however many relations there are, the drawn route is
at most 28 longer, for each row of tables, than any other route between ends of the same tables or columns. -/
theorem C74_rows_partial {q : Queue} {QI : List Entry → Prop} (hq : q.Lawful QI) (m : Module)
    (hsize : (placeNodes m.intoMir).2.size.height ≤ 1000000000) (doc' : Document) (g' : RouteGraph)
    (h : drawEdgePath q (laidOut m.intoMir) .new = .ok (doc', g')) (i : Nat) (c : NodeRef × NodeRef)
    (hc : (connections [] m.entries)[i]? = some c) : ∃ e ps, doc'.edges[i]? = some e ∧ e.pathPoints = some ps ∧
      ∀ ps', IsRoute (lineNumbers (definitions m.entries)) (connections [] m.entries) c ps' →
        pathLength ps ≤ pathLength ps' + 28 * (((definitions m.entries).length + 2) / 3 : Nat) := by
  obtain ⟨e, ps, he, hps, hr, hmin, -⟩ := path_at hq m hsize doc' g' h i c hc
  refine ⟨e, ps, he, hps, fun ps' hr' => ?_⟩
  have hnd := C106_no_point_twice hq m hsize doc' g' h e (List.mem_of_getElem? he) ps hps
  obtain ⟨w, hw⟩ := hr.1
  have h1 := length_eq_cost ps hr.onGrid
  have h3 : (routeCost ps : Rat) ≤ routeCost ps' := by exact_mod_cast hmin ps' hr'
  have h4 := halves_le (ok_module m) (follows_linked hw).1 hnd
  have h5 : (lineNumbers (definitions m.entries)).length = (definitions m.entries).length := by simp [lineNumbers]
  rw [h5] at h4
  have h6 : (halves ps : Rat) ≤ 56 * (((definitions m.entries).length + 2) / 3 : Nat) := by exact_mod_cast h4
  linarith [cost_le_length ps']

/-- The module of `C74_refuted` has 129 rows; that of `C73_refuted`, which meets the hypotheses as shown there, has three: no line of it is
more than 84 longer than necessary. -/
example : 28 * (((definitions (nineTables [.relation ⟨.entity c!"a", .entity c!"i"⟩]).entries).length + 2) / 3) = 84 ∧
    (connections [] (nineTables [.relation ⟨.entity c!"a", .entity c!"i"⟩]).entries)[0]? = some (.table 0, .table 8) := by decide +kernel

end Seiren
