import Verif.Proofs.Longest
import Verif.Props.RowLength
import Verif.Props.Rows
/-! # C111: how long a line is

Upper and lower bounds for the length of every drawn line, in terms of where the two tables or columns stand. -/

namespace Seiren
open Spec Grid

/-- At this height one can pass all tables of the middle column, 40 away from them. -/
def Spec.PassesMiddle (ns : List Nat) (y : Rat) : Prop :=
  ∀ k n : Nat, ns[k]? = some n → k % 3 = 1 → y ≤ rowTop ns (k / 3) - 40 ∨ rowTop ns (k / 3) + 35 * (n : Rat) + 40 ≤ y

/-- What rounding can add: 28 for each row of tables. -/
def Spec.slack (m : Module) : Rat := 28 * (((definitions m.entries).length + 2) / 3 : Nat)

theorem length_le_route {q : Queue} {QI : List Entry → Prop} (hq : q.Lawful QI) (m : Module)
    (hsize : (placeNodes m.intoMir).2.size.height ≤ 1000000000) (i : Nat) (c : NodeRef × NodeRef)
    (hc : (connections [] m.entries)[i]? = some c) {b : Rat}
    (hb : ∃ ps, IsRoute (lineNumbers (definitions m.entries)) (connections [] m.entries) c ps ∧ (routeCost ps : Rat) ≤ b)
    (doc' : Document) (g' : RouteGraph) (h : drawEdgePath q (laidOut m.intoMir) .new = .ok (doc', g')) :
    ∃ e ps, doc'.edges[i]? = some e ∧ e.pathPoints = some ps ∧ pathLength ps ≤ b + slack m := by
  obtain ⟨e, ps, he, hps, hr, hmin, -⟩ := path_at hq m hsize doc' g' h i c hc
  refine ⟨e, ps, he, hps, ?_⟩
  obtain ⟨ps', hr', hle⟩ := hb
  have hnd := C106_no_point_twice hq m hsize doc' g' h e (List.mem_of_getElem? he) ps hps
  obtain ⟨w, hw⟩ := hr.1
  have h1 := length_eq_cost ps hr.onGrid
  have h3 : (routeCost ps : Rat) ≤ routeCost ps' := by exact_mod_cast hmin ps' hr'
  have h4 := halves_le (ok_module m) (follows_linked hw).1 hnd
  have h5 : (lineNumbers (definitions m.entries)).length = (definitions m.entries).length := by simp [lineNumbers]
  rw [h5] at h4
  have h6 : (halves ps : Rat) ≤ 56 * (((definitions m.entries).length + 2) / 3 : Nat) := by exact_mod_cast h4
  unfold slack
  linarith

/-- **C111.** The line between tables or columns of the same or of neighbouring columns of the drawing is, up to rounding, at most as long
as the gap is wide and their middles are apart in height. -/
theorem C111_near {q : Queue} {QI : List Entry → Prop} (hq : q.Lawful QI) (m : Module)
    (hsize : (placeNodes m.intoMir).2.size.height ≤ 1000000000) (i : Nat) (s t : NodeRef)
    (hi : (connections [] m.entries)[i]? = some (s, t)) (hnear : tableNumber s % 3 ≤ tableNumber t % 3 + 1 ∧ tableNumber t % 3 ≤ tableNumber s % 3 + 1) :
    ∃ doc' g' e ps, drawEdgePath q (laidOut m.intoMir) .new = .ok (doc', g') ∧ doc'.edges[i]? = some e ∧ e.pathPoints = some ps ∧
      pathLength ps ≤ 80 + |midHeight (lineNumbers (definitions m.entries)) t - midHeight (lineNumbers (definitions m.entries)) s| + slack m := by
  obtain ⟨doc', g', h, -⟩ := drawn_connections hq m hsize
  refine ⟨doc', g', ?_⟩
  have hm := List.mem_of_getElem? hi
  obtain ⟨e, ps, h1, h2, h3⟩ := length_le_route hq m hsize i _ hi
    (near_route (ok_module m) hm (i := max (tableNumber s % 3) (tableNumber t % 3)) (by omega) (by omega)) doc' g' h
  exact ⟨e, ps, h, h1, h2, h3⟩

/-- Any way past the middle column can be moved to where there is a street, without making it longer. -/
theorem across_near {ns : List Nat} {cs : List (NodeRef × NodeRef)} (h : Ok ns cs) {h1 h2 y : Rat}
    (hfree : FreeMiddle ns h1 → Across ns cs h1) (hy : PassesMiddle ns y) : ∃ y', Across ns cs y' ∧ |y' - h1| + |h2 - y'| ≤ |y - h1| + |h2 - y| := by
  by_cases hf : FreeMiddle ns h1
  · refine ⟨h1, hfree hf, ?_⟩
    rw [sub_self, abs_zero, zero_add]
    have := abs_add_le (h2 - y) (y - h1)
    rw [sub_add_sub_cancel] at this
    linarith
  · unfold FreeMiddle at hf
    push Not at hf
    obtain ⟨r, w, hw, e1, e2⟩ := hf
    have hy' : y ≤ rowTop ns r - 40 ∨ rowTop ns r + 35 * (w : Rat) + 40 ≤ y := by
      have := hy (3 * r + 1) w hw.2 (by omega)
      rwa [show (3 * r + 1) / 3 = r by omega] at this
    have key : ∀ y', Across ns cs y' → |y' - h1| + |y - y'| = |y - h1| → ∃ y', Across ns cs y' ∧ |y' - h1| + |h2 - y'| ≤ |y - h1| + |h2 - y| := by
      intro y' ha e
      refine ⟨y', ha, ?_⟩
      have := abs_add_le (h2 - y) (y - y')
      rw [sub_add_sub_cancel] at this
      linarith
    rcases hy' with hy' | hy'
    · refine key (rowTop ns r - 40) (frame_across h ⟨r, w, hw, .inl rfl⟩) ?_
      rw [abs_of_nonpos (by linarith), abs_of_nonpos (by linarith), abs_of_nonpos (by linarith)]
      ring
    · refine key (rowTop ns r + 35 * (w : Rat) + 40) (frame_across h ⟨r, w, hw, .inr rfl⟩) ?_
      rw [abs_of_nonneg (by linarith), abs_of_nonneg (by linarith), abs_of_nonneg (by linarith)]
      ring

/-- **C111.** The line between tables or columns of the first and the third column of the drawing is, up to rounding, not longer than the
way past the tables of the second column at any height at which that is possible. -/
theorem C111_far {q : Queue} {QI : List Entry → Prop} (hq : q.Lawful QI) (m : Module)
    (hsize : (placeNodes m.intoMir).2.size.height ≤ 1000000000) (i : Nat) (s t : NodeRef)
    (hi : (connections [] m.entries)[i]? = some (s, t))
    (hfar : tableNumber s % 3 = 0 ∧ tableNumber t % 3 = 2 ∨ tableNumber s % 3 = 2 ∧ tableNumber t % 3 = 0) :
    ∃ doc' g' e ps, drawEdgePath q (laidOut m.intoMir) .new = .ok (doc', g') ∧ doc'.edges[i]? = some e ∧ e.pathPoints = some ps ∧
      ∀ y, PassesMiddle (lineNumbers (definitions m.entries)) y →
        pathLength ps ≤ 460 + |y - midHeight (lineNumbers (definitions m.entries)) s| +
          |midHeight (lineNumbers (definitions m.entries)) t - y| + slack m := by
  obtain ⟨doc', g', h, -⟩ := drawn_connections hq m hsize
  obtain ⟨e, ps, he, hps, -⟩ := path_at hq m hsize doc' g' h i _ hi
  refine ⟨doc', g', e, ps, h, he, hps, ?_⟩
  intro y hy
  have hm := List.mem_of_getElem? hi
  have sub : ∀ x, x ∈ endsOf (lineNumbers (definitions m.entries)) s ∨ x ∈ endsOf (lineNumbers (definitions m.entries)) t →
      x ∈ allEnds (lineNumbers (definitions m.entries)) (connections [] m.entries) := fun x hx =>
    List.mem_flatMap.mpr ⟨_, hm, List.mem_append.mpr hx⟩
  obtain ⟨vs, vt⟩ := (ok_module m).valid _ hm
  obtain ⟨y', ha, hle⟩ := across_near (cs := connections [] m.entries) (ok_module m) (h1 := midHeight (lineNumbers (definitions m.entries)) s)
    (h2 := midHeight (lineNumbers (definitions m.entries)) t) (fun hf => by
      rcases hfar with ⟨c1, c2⟩ | ⟨c1, c2⟩
      · exact free_across (ok_module m) (fun x hx => sub x (.inl hx)) (fun x hx => sub x (.inr hx)) vs vt c1 c2 (.inl rfl) hf
      · exact free_across (ok_module m) (fun x hx => sub x (.inr hx)) (fun x hx => sub x (.inl hx)) vt vs c2 c1 (.inr rfl) hf) hy
  obtain ⟨e', ps', h1, h2, h3⟩ := length_le_route hq m hsize i _ hi (far_route (ok_module m) hm hfar ha) doc' g' h
  rw [he] at h1
  cases h1
  rw [hps] at h2
  cases h2
  linarith

/-! ## In terms of the height of the drawing -/

theorem table_bottom (m : Module) {k n : Nat} (hk : (lineNumbers (definitions m.entries))[k]? = some n) :
    rowTop (lineNumbers (definitions m.entries)) (k / 3) + 35 * (n : Rat) + 50 ≤ (placeNodes m.intoMir).2.size.height := by
  have hns : lineCounts m.intoMir = lineNumbers (definitions m.entries) := lineCounts_intoMir m
  rw [← hns] at hk ⊢
  have hd := drawable_intoMir m
  rw [lineCounts, List.getElem?_map, Option.map_eq_some_iff] at hk
  obtain ⟨t, ht, rfl⟩ := hk
  have htm := List.mem_of_getElem? ht
  obtain ⟨h0, -, -, hbox⟩ := C23_view_box_partial m.intoMir hd.tabular (List.ne_nil_of_mem htm)
  obtain ⟨r, hr, -, -, -, h4⟩ := hbox t (List.mem_append.mpr (Or.inl htm))
  rw [rectOf_table hd.tabular k t ht] at hr
  cases hr
  rw [h0] at h4
  simp only [tableRect] at h4
  linarith

theorem rows_high {ns : List Nat} (hpos : ∀ (k n : Nat), ns[k]? = some n → 1 ≤ n) : ∀ r : Nat, 3 * r ≤ ns.length → 50 + 115 * (r : Rat) ≤ rowTop ns r := by
  intro r
  induction r with
  | zero => intro _; simp [rowTop]
  | succ r ih =>
    intro hr
    have h1 := ih (by omega)
    have h2 : 1 ≤ ns[3 * r]?.getD 0 := by
      rw [List.getElem?_eq_getElem (by omega)]
      exact hpos (3 * r) _ (List.getElem?_eq_getElem (by omega))
    have h3 : 1 ≤ tallest ns r := by unfold tallest; omega
    have h4 : (1 : Rat) ≤ tallest ns r := by exact_mod_cast h3
    rw [rowTop]
    push_cast
    linarith

/-- 28 for each row is less than a quarter of the height. -/
theorem slack_le (m : Module) (hne : 0 < (definitions m.entries).length) : slack m ≤ (placeNodes m.intoMir).2.size.height / 4 := by
  have hpos := (ok_module m).pos
  have hlen : (lineNumbers (definitions m.entries)).length = (definitions m.entries).length := by simp [lineNumbers]
  obtain ⟨r, hr⟩ : ∃ r, ((definitions m.entries).length + 2) / 3 = r + 1 := ⟨((definitions m.entries).length + 2) / 3 - 1, by omega⟩
  have hlt : 3 * r < (lineNumbers (definitions m.entries)).length := by omega
  have h1 := table_bottom m (List.getElem?_eq_getElem hlt)
  have h2 := hpos _ _ (List.getElem?_eq_getElem hlt)
  have h3 : (1 : Rat) ≤ ((lineNumbers (definitions m.entries))[3 * r] : Nat) := by exact_mod_cast h2
  have h4 := rows_high hpos r hlt.le
  rw [show 3 * r / 3 = r by omega] at h1
  have h5 : (0 : Rat) ≤ r := Nat.cast_nonneg r
  unfold slack
  rw [hr]
  push_cast
  linarith

theorem mid_within (m : Module) {r : NodeRef} (hv : ValidRef (lineNumbers (definitions m.entries)) r) :
    50 ≤ midHeight (lineNumbers (definitions m.entries)) r ∧
      midHeight (lineNumbers (definitions m.entries)) r + 50 ≤ (placeNodes m.intoMir).2.size.height := by
  cases r with
  | table k =>
    obtain ⟨n, hn⟩ := hv
    have h1 := table_bottom m hn
    have h2 := rowTop_ge (lineNumbers (definitions m.entries)) (k / 3)
    have h0 : (0 : Rat) ≤ n := Nat.cast_nonneg n
    simp only [midHeight, refRect, hn, Option.getD_some, tableRect]
    constructor <;> linarith
  | column k j =>
    obtain ⟨n, hn, hj⟩ := hv
    have h1 := table_bottom m hn
    have h2 := rowTop_ge (lineNumbers (definitions m.entries)) (k / 3)
    have hj' : (j : Rat) + 2 ≤ n := by exact_mod_cast hj
    have h0 : (0 : Rat) ≤ j := Nat.cast_nonneg j
    simp only [midHeight, refRect, lineRect]
    push_cast
    constructor <;> linarith

/-- **C111.** No line is longer than 340 and two and a quarter times the height of the drawing. -/
theorem C111_whole {q : Queue} {QI : List Entry → Prop} (hq : q.Lawful QI) (m : Module)
    (hsize : (placeNodes m.intoMir).2.size.height ≤ 1000000000) (i : Nat) (hi : i < (connections [] m.entries).length) :
    ∃ doc' g' e ps, drawEdgePath q (laidOut m.intoMir) .new = .ok (doc', g') ∧ doc'.edges[i]? = some e ∧ e.pathPoints = some ps ∧
      pathLength ps ≤ 340 + 9 / 4 * (placeNodes m.intoMir).2.size.height := by
  obtain ⟨⟨s, t⟩, hst⟩ : ∃ c, (connections [] m.entries)[i]? = some c := ⟨_, List.getElem?_eq_getElem hi⟩
  obtain ⟨vs, vt⟩ := (ok_module m).valid _ (List.mem_of_getElem? hst)
  have number : ∀ {r : NodeRef}, ValidRef (lineNumbers (definitions m.entries)) r →
      ∃ n, (lineNumbers (definitions m.entries))[tableNumber r]? = some n := by
    intro r hr
    cases r with
    | table k => exact hr
    | column k j => obtain ⟨n, hn, -⟩ := hr; exact ⟨n, hn⟩
  obtain ⟨n1, hn1⟩ := number vs
  obtain ⟨n2, hn2⟩ := number vt
  have hlen : (lineNumbers (definitions m.entries)).length = (definitions m.entries).length := by simp [lineNumbers]
  have l1 := (List.getElem?_eq_some_iff.mp hn1).1
  have l2 := (List.getElem?_eq_some_iff.mp hn2).1
  simp only at l1 l2
  have hsl := slack_le m (by omega)
  have ms := mid_within m vs
  have mt := mid_within m vt
  simp only at ms mt
  by_cases hnear : tableNumber s % 3 ≤ tableNumber t % 3 + 1 ∧ tableNumber t % 3 ≤ tableNumber s % 3 + 1
  · obtain ⟨doc', g', e, ps, h1, h2, h3, h4⟩ := C111_near hq m hsize i s t hst hnear
    refine ⟨doc', g', e, ps, h1, h2, h3, h4.trans ?_⟩
    have : |midHeight (lineNumbers (definitions m.entries)) t - midHeight (lineNumbers (definitions m.entries)) s| ≤
        (placeNodes m.intoMir).2.size.height := abs_le.mpr ⟨by linarith, by linarith⟩
    linarith
  · obtain ⟨doc', g', e, ps, h1, h2, h3, h4⟩ := C111_far hq m hsize i s t hst (by omega)
    refine ⟨doc', g', e, ps, h1, h2, h3, ?_⟩
    have hpass : PassesMiddle (lineNumbers (definitions m.entries)) 10 := fun k n hn _ =>
      .inl (by have := rowTop_ge (lineNumbers (definitions m.entries)) (k / 3); linarith)
    refine (h4 10 hpass).trans ?_
    rw [abs_of_nonpos (by linarith), abs_of_nonneg (by linarith)]
    linarith

/-! ## At least -/

/-- **C111.** The line between two columns of tables is at least as long as the tables and their gaps in between are
wide and the columns are apart in height. -/
theorem C111_at_least {q : Queue} {QI : List Entry → Prop} (hq : q.Lawful QI) (m : Module)
    (hsize : (placeNodes m.intoMir).2.size.height ≤ 1000000000) (i k j k' j' : Nat)
    (hi : (connections [] m.entries)[i]? = some (.column k j, .column k' j')) :
    ∃ doc' g' e ps, drawEdgePath q (laidOut m.intoMir) .new = .ok (doc', g') ∧ doc'.edges[i]? = some e ∧ e.pathPoints = some ps ∧
      380 * |((k % 3 : Nat) : Rat) - (k' % 3 : Nat)| - 300 +
        |lineHeight (lineNumbers (definitions m.entries)) k j - lineHeight (lineNumbers (definitions m.entries)) k' j'| ≤ pathLength ps := by
  obtain ⟨doc', g', h, -⟩ := drawn_connections hq m hsize
  obtain ⟨e, ps, he, hps, hr, -⟩ := path_at hq m hsize doc' g' h i _ hi
  refine ⟨doc', g', e, ps, h, he, hps, ?_⟩
  obtain ⟨-, ⟨a, o, ha, hae⟩, ⟨b, o', hb, hbe⟩⟩ := hr
  have hdist : distance a b ≤ pathLength ps := by
    cases ps with
    | nil => cases ha
    | cons p ps => cases ha; exact distance_le_length _ _ _ hb
  refine le_trans ?_ hdist
  have ends : ∀ {k j : Nat} {a : Point} {o : Orientation}, (a, o) ∈ endsOf (lineNumbers (definitions m.entries)) (.column k j) →
      |a.x - (200 + 380 * ((k % 3 : Nat) : Rat))| + |a.y - lineHeight (lineNumbers (definitions m.entries)) k j| ≤ 150 := by
    intro k j a o h
    rcases column_ends h with rfl | rfl | ⟨h1, h2, -⟩
    · simp only [sideMiddle, lineRect, lineHeight]
      rw [abs_of_pos (by linarith)]
      push_cast
      rw [sub_self, abs_zero]
      linarith
    · simp only [sideMiddle, lineRect, lineHeight]
      rw [abs_of_neg (by linarith)]
      push_cast
      rw [sub_self, abs_zero]
      linarith
    · rw [h1, h2]
      simp only [sideMiddle, lineRect, lineHeight]
      push_cast
      rw [sub_self, abs_zero, add_sub_cancel_left]
      norm_num
  have e1 := ends hae
  have e2 := ends hbe
  unfold distance
  have t1 : |380 * (((k % 3 : Nat) : Rat) - (k' % 3 : Nat))| ≤
      |a.x - (200 + 380 * ((k % 3 : Nat) : Rat))| + |a.x - b.x| + |b.x - (200 + 380 * ((k' % 3 : Nat) : Rat))| := by
    rw [abs_le]
    have := neg_abs_le (a.x - (200 + 380 * ((k % 3 : Nat) : Rat)))
    have := le_abs_self (a.x - (200 + 380 * ((k % 3 : Nat) : Rat)))
    have := neg_abs_le (b.x - (200 + 380 * ((k' % 3 : Nat) : Rat)))
    have := le_abs_self (b.x - (200 + 380 * ((k' % 3 : Nat) : Rat)))
    have := neg_abs_le (a.x - b.x)
    have := le_abs_self (a.x - b.x)
    constructor <;> linarith
  rw [abs_mul, abs_of_pos (by norm_num : (0 : Rat) < 380)] at t1
  have t2 : |lineHeight (lineNumbers (definitions m.entries)) k j - lineHeight (lineNumbers (definitions m.entries)) k' j'| ≤
      |a.y - lineHeight (lineNumbers (definitions m.entries)) k j| + |a.y - b.y| +
        |b.y - lineHeight (lineNumbers (definitions m.entries)) k' j'| := by
    rw [abs_le]
    have := neg_abs_le (a.y - lineHeight (lineNumbers (definitions m.entries)) k j)
    have := le_abs_self (a.y - lineHeight (lineNumbers (definitions m.entries)) k j)
    have := neg_abs_le (b.y - lineHeight (lineNumbers (definitions m.entries)) k' j')
    have := le_abs_self (b.y - lineHeight (lineNumbers (definitions m.entries)) k' j')
    have := neg_abs_le (a.y - b.y)
    have := le_abs_self (a.y - b.y)
    constructor <;> linarith
  linarith

/-- How far apart two intervals are: 0 if they meet. -/
def Spec.apart (lo hi lo' hi' : Rat) : Rat := max 0 (max (lo' - hi) (lo - hi'))

/-- How far apart two rectangles are, horizontally and vertically together. -/
def Spec.between (a b : Rect) : Rat :=
  apart a.origin.x (a.origin.x + a.size.width) b.origin.x (b.origin.x + b.size.width) +
    apart a.origin.y (a.origin.y + a.size.height) b.origin.y (b.origin.y + b.size.height)

theorem apart_le {lo hi lo' hi' x x' : Rat} (h1 : lo ≤ x) (h2 : x ≤ hi) (h3 : lo' ≤ x') (h4 : x' ≤ hi') : apart lo hi lo' hi' ≤ |x - x'| := by
  unfold apart
  refine max_le (abs_nonneg _) (max_le ?_ ?_)
  · have := neg_abs_le (x - x')
    linarith
  · have := le_abs_self (x - x')
    linarith

theorem end_within {ns : List Nat} {r : NodeRef} {a : Point} {o : Orientation} (h : (a, o) ∈ endsOf ns r) :
    (refRect ns r).origin.x ≤ a.x ∧ a.x ≤ (refRect ns r).origin.x + (refRect ns r).size.width ∧
      (refRect ns r).origin.y ≤ a.y ∧ a.y ≤ (refRect ns r).origin.y + (refRect ns r).size.height := by
  simp only [endsOf, List.mem_map, Prod.mk.injEq] at h
  obtain ⟨o', -, rfl, rfl⟩ := h
  have hw : 0 ≤ (refRect ns r).size.width ∧ 0 ≤ (refRect ns r).size.height := by
    cases r with
    | table k =>
      have : (0 : Rat) ≤ (ns[k]?.getD 0 : Nat) := Nat.cast_nonneg _
      simp only [refRect, tableRect]
      constructor <;> linarith
    | column k j => simp only [refRect, lineRect]; constructor <;> norm_num
  obtain ⟨w, h⟩ := hw
  cases o' <;> simp only [sideMiddle] <;> refine ⟨?_, ?_, ?_, ?_⟩ <;> linarith

/-- **C111.** No line is shorter than the tables or columns that it joins are apart, horizontally and vertically together. -/
theorem C111_between {q : Queue} {QI : List Entry → Prop} (hq : q.Lawful QI) (m : Module)
    (hsize : (placeNodes m.intoMir).2.size.height ≤ 1000000000) (i : Nat) (s t : NodeRef)
    (hi : (connections [] m.entries)[i]? = some (s, t)) :
    ∃ doc' g' e ps, drawEdgePath q (laidOut m.intoMir) .new = .ok (doc', g') ∧ doc'.edges[i]? = some e ∧ e.pathPoints = some ps ∧
      between (refRect (lineNumbers (definitions m.entries)) s) (refRect (lineNumbers (definitions m.entries)) t) ≤ pathLength ps := by
  obtain ⟨doc', g', h, -⟩ := drawn_connections hq m hsize
  obtain ⟨e, ps, he, hps, hr, -⟩ := path_at hq m hsize doc' g' h i _ hi
  refine ⟨doc', g', e, ps, h, he, hps, ?_⟩
  obtain ⟨-, ⟨a, o, ha, hae⟩, ⟨b, o', hb, hbe⟩⟩ := hr
  have hdist : distance a b ≤ pathLength ps := by
    cases ps with
    | nil => cases ha
    | cons p ps => cases ha; exact distance_le_length _ _ _ hb
  refine le_trans ?_ hdist
  obtain ⟨a1, a2, a3, a4⟩ := end_within hae
  obtain ⟨b1, b2, b3, b4⟩ := end_within hbe
  exact add_le_add (apart_le a1 a2 b1 b2) (apart_le a3 a4 b3 b4)

/-! Four tables, the last one in the second row, and three relations: from the first to the third table, between columns and between the
whole tables, and from the third to the fourth. -/

def overTheMiddle : Module :=
  ⟨none, [.definition ⟨c!"a", [⟨c!"x", .int, none⟩]⟩, .definition ⟨c!"b", [⟨c!"x", .int, none⟩]⟩,
    .definition ⟨c!"c", [⟨c!"x", .int, none⟩, ⟨c!"y", .int, none⟩]⟩, .definition ⟨c!"d", [⟨c!"x", .int, none⟩]⟩,
    .relation ⟨.field c!"a" c!"x", .field c!"c" c!"x"⟩, .relation ⟨.entity c!"a", .entity c!"c"⟩,
    .relation ⟨.field c!"c" c!"y", .field c!"d" c!"x"⟩]⟩

/-- It meets the hypotheses; the second table can be passed at the heights 10 and 160. -/
example : connections [] overTheMiddle.entries =
      [(.column 0 0, .column 2 0), (.table 0, .table 2), (.column 2 1, .column 3 0)] ∧
    (placeNodes overTheMiddle.intoMir).2.size.height ≤ 1000000000 ∧ slack overTheMiddle = 56 ∧
    ∀ y, PassesMiddle (lineNumbers (definitions overTheMiddle.entries)) y ↔ y ≤ 10 ∨ 160 ≤ y := by
  refine ⟨by decide +kernel, by decide +kernel, by decide +kernel, fun y => ?_⟩
  have e : lineNumbers (definitions overTheMiddle.entries) = [2, 2, 3, 2] := by decide +kernel
  rw [e]
  have h0 : rowTop [2, 2, 3, 2] 0 = 50 := rfl
  constructor
  · intro h
    have := h 1 2 rfl rfl
    rw [show 1 / 3 = 0 from rfl, h0] at this
    rcases this with h | h
    · exact .inl (by linarith)
    · exact .inr (by push_cast at h; linarith)
  · intro h k n hn hk
    have hlt := (List.getElem?_eq_some_iff.mp hn).1
    simp only [List.length_cons, List.length_nil] at hlt
    obtain rfl : k = 1 := by omega
    cases hn
    rw [show 1 / 3 = 0 from rfl, h0]
    rcases h with h | h
    · exact .inl (by linarith)
    · exact .inr (by push_cast; linarith)

set_option maxRecDepth 1000000 in
/-- The three lines. The first runs through the second table, and is as short as `C111_at_least` allows; `C111_far` gives 575 + 56. The
last one goes under the second table, at 160, and is as long as `C111_far` and `C111_at_least` say, without the 56. -/
theorem C111_lines : pathsOf (drawEdgePath BinHeap.queue (laidOut overTheMiddle.intoMir) .new) =
      some [some [⟨350, 205/2⟩, ⟨390, 205/2⟩, ⟨770, 205/2⟩, ⟨810, 205/2⟩],
        some [⟨350, 85⟩, ⟨390, 85⟩, ⟨390, 205/2⟩, ⟨770, 205/2⟩, ⟨810, 205/2⟩],
        some [⟨810, 275/2⟩, ⟨770, 275/2⟩, ⟨770, 160⟩, ⟨770, 195⟩, ⟨770, 575/2⟩, ⟨390, 575/2⟩, ⟨350, 575/2⟩]] ∧
    pathLength [⟨350, 205/2⟩, ⟨390, 205/2⟩, ⟨770, 205/2⟩, ⟨810, 205/2⟩] = 460 ∧
    pathLength [⟨810, 275/2⟩, ⟨770, 275/2⟩, ⟨770, 160⟩, ⟨770, 195⟩, ⟨770, 575/2⟩, ⟨390, 575/2⟩, ⟨350, 575/2⟩] = 610 := by
  decide +kernel

/-- `C111_between` for the line between the whole tables, which is 477.5 long. -/
example : between (refRect [2, 2, 3, 2] (.table 0)) (refRect [2, 2, 3, 2] (.table 2)) = 460 ∧
    pathLength [⟨350, 85⟩, ⟨390, 85⟩, ⟨390, 205/2⟩, ⟨770, 205/2⟩, ⟨810, 205/2⟩] = 955 / 2 := by decide +kernel

end Seiren
