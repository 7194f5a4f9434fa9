import Verif.Proofs.Neighbours
import Verif.Props.Grid
import Verif.Props.RouteLength
import Verif.Props.Debug
/-! # C106: tables side by side are joined directly

A relation between two columns of neighbouring tables of a row leaves the one table on the side of the other, turns in the middle of
the gap, and enters the other table on the side of the first. -/

namespace Seiren
open Spec Grid

theorem Spec.Direct.reverse {x : Rat} {a b : Point} {ps : List Point} (h : Direct x a b ps) : Direct x b a ps.reverse := by
  obtain ⟨mid, rfl, h1, h2, h3, h4⟩ := h
  refine ⟨mid.reverse, by simp, by rw [List.head?_reverse]; exact h2, by rw [List.getLast?_reverse]; exact h1,
    fun p hp => h3 p (List.mem_reverse.mp hp), ?_⟩
  rw [List.pairwise_reverse, List.pairwise_reverse]
  exact h4.symm

/-- Between points of the same height there is nothing to do in the gap. -/
theorem Spec.Direct.level {x : Rat} {a b : Point} {ps : List Point} (h : Direct x a b ps) (hy : a.y = b.y) : ps = [a, ⟨x, a.y⟩, b] := by
  obtain ⟨mid, rfl, h1, h2, -, h4⟩ := h
  match mid, h1 with
  | [p], h1 => cases h1; rfl
  | p :: q :: mid, h1 =>
    exfalso
    have hl : (⟨x, b.y⟩ : Point) ∈ q :: mid := by
      rw [List.getLast?_cons_cons] at h2
      exact List.mem_of_getLast? h2
    cases h1
    rcases h4 with h4 | h4
    · have := (List.pairwise_cons.mp h4).1 _ hl
      simp only [hy, lt_irrefl] at this
    · have := (List.pairwise_cons.mp h4).1 _ hl
      simp only [hy, lt_irrefl] at this

theorem length_down {x : Rat} (b : Point) : ∀ (mid : List Point) (p : Point) (y : Rat), (p :: mid).getLast? = some ⟨x, y⟩ →
    (∀ q ∈ p :: mid, q.x = x) → (p :: mid).Pairwise (fun p q => p.y < q.y) → b.y = y →
    pathLength (p :: mid ++ [b]) = (y - p.y) + |b.x - x| := by
  intro mid
  induction mid with
  | nil =>
    rintro p y h - - hb
    cases h
    simp [pathLength, distance, hb, abs_sub_comm]
  | cons q mid ih =>
    intro p y h hx hp hb
    rw [List.getLast?_cons_cons] at h
    have := ih q y h (fun z hz => hx z (List.mem_cons_of_mem _ hz)) (List.pairwise_cons.mp hp).2 hb
    have e : pathLength (p :: q :: mid ++ [b]) = distance p q + pathLength (q :: mid ++ [b]) := rfl
    have hlt := (List.pairwise_cons.mp hp).1 q (by simp)
    rw [e, this, distance, hx p (by simp), hx q (by simp), sub_self, abs_zero, abs_of_neg (by linarith)]
    ring

theorem length_up {x : Rat} (b : Point) : ∀ (mid : List Point) (p : Point) (y : Rat), (p :: mid).getLast? = some ⟨x, y⟩ →
    (∀ q ∈ p :: mid, q.x = x) → (p :: mid).Pairwise (fun p q => q.y < p.y) → b.y = y →
    pathLength (p :: mid ++ [b]) = (p.y - y) + |b.x - x| := by
  intro mid
  induction mid with
  | nil =>
    rintro p y h - - hb
    cases h
    simp [pathLength, distance, hb, abs_sub_comm]
  | cons q mid ih =>
    intro p y h hx hp hb
    rw [List.getLast?_cons_cons] at h
    have := ih q y h (fun z hz => hx z (List.mem_cons_of_mem _ hz)) (List.pairwise_cons.mp hp).2 hb
    have e : pathLength (p :: q :: mid ++ [b]) = distance p q + pathLength (q :: mid ++ [b]) := rfl
    have hlt := (List.pairwise_cons.mp hp).1 q (by simp)
    rw [e, this, distance, hx p (by simp), hx q (by simp), sub_self, abs_zero, abs_of_pos (by linarith)]
    ring

/-- The length of such a path: no path of level and upright pieces over the line at `x` is shorter. -/
theorem Spec.Direct.length {x : Rat} {a b : Point} {ps : List Point} (h : Direct x a b ps) :
    pathLength ps = |x - a.x| + |b.y - a.y| + |b.x - x| := by
  obtain ⟨mid, rfl, h1, h2, h3, h4⟩ := h
  match mid, h1 with
  | p :: mid, h1 =>
    cases h1
    have hl : b.y = a.y ∨ (⟨x, b.y⟩ : Point) ∈ mid := by
      rcases List.mem_cons.mp (List.mem_of_getLast? h2) with e | e
      · left; simpa using e
      · exact .inr e
    have e : pathLength (a :: (⟨x, a.y⟩ :: mid) ++ [b]) = distance a ⟨x, a.y⟩ + pathLength (⟨x, a.y⟩ :: mid ++ [b]) := rfl
    rw [e, distance, abs_sub_comm a.x]
    simp only [sub_self, abs_zero]
    rcases h4 with h4 | h4
    · have hle : 0 ≤ b.y - a.y := by
        rcases hl with e | e
        · rw [e, sub_self]
        · have := (List.pairwise_cons.mp h4).1 _ e
          simp only at this
          linarith
      rw [length_down b mid _ b.y h2 h3 h4 rfl, abs_of_nonneg hle]
      ring
    · have hle : b.y - a.y ≤ 0 := by
        rcases hl with e | e
        · rw [e, sub_self]
        · have := (List.pairwise_cons.mp h4).1 _ e
          simp only at this
          linarith
      rw [length_up b mid _ b.y h2 h3 h4 rfl, abs_of_nonpos hle]
      ring

/-- **C106.** No drawn path comes twice through the same point. -/
theorem C106_no_point_twice {q : Queue} {QI : List Entry → Prop} (hq : q.Lawful QI) (m : Module)
    (hsize : (placeNodes m.intoMir).2.size.height ≤ 1000000000) (doc' : Document) (g' : RouteGraph)
    (h : drawEdgePath q (laidOut m.intoMir) .new = .ok (doc', g')) (e : EdgeData) (he : e ∈ doc'.edges) (ps : List Point)
    (hps : e.pathPoints = some ps) : ps.Nodup := by
  obtain ⟨⟨w, -, hn, hl⟩, -⟩ := C36_paths_shortest hq m.intoMir (drawable_intoMir m) hsize doc' g' h e he ps hps
  obtain ⟨d2, g2, h2, hwf, -⟩ := C59_module hq m hsize
  rw [h] at h2
  cases h2
  unfold Locations at hl
  clear hps he h
  induction hl with
  | nil => exact List.nodup_nil
  | @cons i p w ps h1 h2 ih =>
    obtain ⟨hi, hn⟩ := List.nodup_cons.mp hn
    refine List.nodup_cons.mpr ⟨fun hp => hi ?_, ih hn⟩
    obtain ⟨k, hk⟩ := List.getElem?_of_mem hp
    rw [List.forall₂_iff_get] at h2
    obtain ⟨hlen, hget⟩ := h2
    obtain ⟨h3, h4⟩ := List.getElem?_eq_some_iff.mp hk
    obtain ⟨n, hn1, hn2⟩ := hget k (by omega) h3
    simp only [List.get_eq_getElem] at hn1 hn2
    obtain ⟨n', hn3, hn4⟩ := h1
    rw [node_unique hwf hn3 hn1 (by rw [hn4, hn2, h4])]
    exact List.getElem_mem _

/-- The two relations are between neighbours: `s` is a table, or a column of it, and `t` the next one of the row, or a column of it. -/
def Spec.SideBySide (s t : NodeRef) : Prop := tableNumber t = tableNumber s + 1 ∧ tableNumber s % 3 ≠ 2

/-- They are at the same height, or both are columns. -/
def Spec.Near (ns : List Nat) (s t : NodeRef) : Prop :=
  (sideMiddle (refRect ns s) .right).y = (sideMiddle (refRect ns t) .left).y ∨
    ∃ k j j', s = .column k j ∧ t = .column (k + 1) j'

/-- What both directions have in common, for neighbouring columns of the drawing. -/
theorem direct_rows {ns : List Nat} {cs : List (NodeRef × NodeRef)} (hok : Ok ns cs) {s t : NodeRef}
    (hm : (s, t) ∈ cs ∨ (t, s) ∈ cs) (hcol : tableNumber t % 3 = tableNumber s % 3 + 1) {r d : Nat} (hd : d ≤ 8)
    (hrs : r ≤ tableNumber s / 3 ∧ tableNumber s / 3 ≤ r + d) (hrt : r ≤ tableNumber t / 3 ∧ tableNumber t / 3 ≤ r + d)
    (hnear : (sideMiddle (refRect ns s) .right).y = (sideMiddle (refRect ns t) .left).y ∨
      (∃ k j, s = .column k j) ∧ ∃ k j, t = .column k j) {ps : List Point} (hr : IsRoute ns cs (s, t) ps)
    (hn : ps.Nodup) (hmin : ∀ ps', IsRoute ns cs (s, t) ps' → routeCost ps ≤ routeCost ps') :
    Direct ((sideMiddle (refRect ns s) .right).x + 40) (sideMiddle (refRect ns s) .right) (sideMiddle (refRect ns t) .left) ps := by
  obtain ⟨hw, ⟨a, o, ha, hae⟩, b, o', hb, hbe⟩ := hr
  have hsub : ∀ x, x ∈ endsOf ns s ∨ x ∈ endsOf ns t → x ∈ allEnds ns cs := by
    intro x hx
    rcases hm with hm | hm
    · exact List.mem_flatMap.mpr ⟨_, hm, List.mem_append.mpr hx⟩
    · exact List.mem_flatMap.mpr ⟨_, hm, List.mem_append.mpr hx.symm⟩
  have hv : ValidRef ns s ∧ ValidRef ns t := by
    rcases hm with hm | hm
    · exact hok.valid _ hm
    · exact (hok.valid _ hm).symm
  exact side_by_side hok hcol hd hrs hrt hv.1 hv.2
    (fun x hx => hsub x (.inl hx)) (fun x hx => hsub x (.inr hx)) hnear hw hn ha hb hae hbe
    (fun w' ps' a' b' u u' hf ha' hb' hu hu' => hmin ps' ⟨⟨w', hf⟩, ⟨a', u, ha', hu⟩, b', u', hb', hu'⟩)

/-- The same for neighbours of a row. -/
theorem direct_route {ns : List Nat} {cs : List (NodeRef × NodeRef)} (hok : Ok ns cs) {s t : NodeRef}
    (hm : (s, t) ∈ cs ∨ (t, s) ∈ cs) (hst : SideBySide s t) (hnear : Near ns s t) {ps : List Point} (hr : IsRoute ns cs (s, t) ps)
    (hn : ps.Nodup) (hmin : ∀ ps', IsRoute ns cs (s, t) ps' → routeCost ps ≤ routeCost ps') :
    Direct ((sideMiddle (refRect ns s) .right).x + 40) (sideMiddle (refRect ns s) .right) (sideMiddle (refRect ns t) .left) ps := by
  obtain ⟨h1, h2⟩ := hst
  have hcol : tableNumber t % 3 = tableNumber s % 3 + 1 := by omega
  have hrow : tableNumber t / 3 = tableNumber s / 3 := by omega
  refine direct_rows hok hm hcol (r := tableNumber s / 3) (d := 0) (by omega) (by omega) (by omega) ?_ hr hn hmin
  rcases hnear with e | ⟨k, j, j', rfl, rfl⟩
  · exact .inl e
  · exact .inr ⟨⟨_, _, rfl⟩, _, _, rfl⟩

/-- **C106.** A relation from a table or column to the next table of the row or a column of it, both at the same height or both
columns, is drawn out of the right side of the first, along the middle of the gap, and into the left side of the second. -/
theorem C106_to_the_right {q : Queue} {QI : List Entry → Prop} (hq : q.Lawful QI) (m : Module)
    (hsize : (placeNodes m.intoMir).2.size.height ≤ 1000000000) (i : Nat) (s t : NodeRef)
    (hi : (connections [] m.entries)[i]? = some (s, t)) (hst : SideBySide s t) (hnear : Near (lineNumbers (definitions m.entries)) s t) :
    ∃ doc' g' e ps, drawEdgePath q (laidOut m.intoMir) .new = .ok (doc', g') ∧ doc'.edges[i]? = some e ∧ e.pathPoints = some ps ∧
      Direct ((sideMiddle (refRect (lineNumbers (definitions m.entries)) s) .right).x + 40)
        (sideMiddle (refRect (lineNumbers (definitions m.entries)) s) .right)
        (sideMiddle (refRect (lineNumbers (definitions m.entries)) t) .left) ps := by
  obtain ⟨doc', g', h, -⟩ := drawn_connections hq m hsize
  obtain ⟨e, ps, he, hps, hr, hmin, -⟩ := path_at hq m hsize doc' g' h i _ hi
  have hn := C106_no_point_twice hq m hsize doc' g' h e (List.mem_of_getElem? he) ps hps
  exact ⟨doc', g', e, ps, h, he, hps, direct_route (ok_module m) (.inl (List.mem_of_getElem? hi)) hst hnear hr hn hmin⟩

/-- **C106.** The relation the other way round is drawn along the same middle of the gap, backwards. -/
theorem C106_to_the_left {q : Queue} {QI : List Entry → Prop} (hq : q.Lawful QI) (m : Module)
    (hsize : (placeNodes m.intoMir).2.size.height ≤ 1000000000) (i : Nat) (s t : NodeRef)
    (hi : (connections [] m.entries)[i]? = some (t, s)) (hst : SideBySide s t) (hnear : Near (lineNumbers (definitions m.entries)) s t) :
    ∃ doc' g' e ps, drawEdgePath q (laidOut m.intoMir) .new = .ok (doc', g') ∧ doc'.edges[i]? = some e ∧ e.pathPoints = some ps ∧
      Direct ((sideMiddle (refRect (lineNumbers (definitions m.entries)) s) .right).x + 40)
        (sideMiddle (refRect (lineNumbers (definitions m.entries)) t) .left)
        (sideMiddle (refRect (lineNumbers (definitions m.entries)) s) .right) ps := by
  obtain ⟨doc', g', h, -⟩ := drawn_connections hq m hsize
  obtain ⟨e, ps, he, hps, hr, hmin, -⟩ := path_at hq m hsize doc' g' h i _ hi
  have hn := C106_no_point_twice hq m hsize doc' g' h e (List.mem_of_getElem? he) ps hps
  have := direct_route (ok_module m) (.inr (List.mem_of_getElem? hi)) hst hnear hr.reverse (List.nodup_reverse.mpr hn)
    (fun ps' hr' => by
      have := hmin _ hr'.reverse
      rw [routeCost_reverse] at this ⊢
      exact this)
  have := this.reverse
  rw [List.reverse_reverse] at this
  exact ⟨doc', g', e, ps, h, he, hps, this⟩

/-- **C106.** Columns on the same line of neighbouring tables are joined by a straight line, with one point in the middle of the gap. -/
theorem C106_same_line {q : Queue} {QI : List Entry → Prop} (hq : q.Lawful QI) (m : Module)
    (hsize : (placeNodes m.intoMir).2.size.height ≤ 1000000000) (i k j : Nat) (hrow : k % 3 ≠ 2)
    (hi : (connections [] m.entries)[i]? = some (.column k j, .column (k + 1) j)) :
    ∃ doc' g' e y, drawEdgePath q (laidOut m.intoMir) .new = .ok (doc', g') ∧ doc'.edges[i]? = some e ∧
      y = rowTop (lineNumbers (definitions m.entries)) (k / 3) + 35 * (j + 1) + 35 / 2 ∧
      e.pathPoints = some [⟨350 + 380 * (k % 3 : Nat), y⟩, ⟨390 + 380 * (k % 3 : Nat), y⟩, ⟨430 + 380 * (k % 3 : Nat), y⟩] := by
  have hk : (k + 1) / 3 = k / 3 := by omega
  have hk' : (k + 1) % 3 = k % 3 + 1 := by omega
  have hnear : Near (lineNumbers (definitions m.entries)) (.column k j) (.column (k + 1) j) :=
    .inr ⟨k, j, j, rfl, rfl⟩
  obtain ⟨doc', g', e, ps, h, he, hps, hd⟩ := C106_to_the_right hq m hsize i _ _ hi ⟨rfl, hrow⟩ hnear
  refine ⟨doc', g', e, _, h, he, rfl, ?_⟩
  have := hd.level (by simp only [refRect, lineRect, sideMiddle, hk])
  rw [hps, this]
  simp only [refRect, lineRect, sideMiddle, hk, hk', Option.some.injEq, List.cons.injEq, Point.mk.injEq, and_true]
  push_cast
  refine ⟨⟨?_, ?_⟩, ⟨?_, ?_⟩, ?_, ?_⟩ <;> ring

/-- **C106.** The line between two columns of neighbouring tables is as long as the gap is wide and the columns are
apart in height: shorter than that no line of level and upright pieces is. -/
theorem C106_length {q : Queue} {QI : List Entry → Prop} (hq : q.Lawful QI) (m : Module)
    (hsize : (placeNodes m.intoMir).2.size.height ≤ 1000000000) (i k j j' : Nat) (hrow : k % 3 ≠ 2)
    (hi : (connections [] m.entries)[i]? = some (.column k j, .column (k + 1) j') ∨
      (connections [] m.entries)[i]? = some (.column (k + 1) j', .column k j)) :
    ∃ doc' g' e ps, drawEdgePath q (laidOut m.intoMir) .new = .ok (doc', g') ∧ doc'.edges[i]? = some e ∧ e.pathPoints = some ps ∧
      pathLength ps = 80 + 35 * |(j : Rat) - j'| := by
  have hk : (k + 1) / 3 = k / 3 := by omega
  have hk' : (k + 1) % 3 = k % 3 + 1 := by omega
  have hnear : Near (lineNumbers (definitions m.entries)) (.column k j) (.column (k + 1) j') :=
    .inr ⟨k, j, j', rfl, rfl⟩
  have e35 : ∀ r : Rat, |35 * r| = 35 * |r| := fun r => by rw [abs_mul]; norm_num
  rcases hi with hi | hi
  · obtain ⟨doc', g', e, ps, h, he, hps, hd⟩ := C106_to_the_right hq m hsize i _ _ hi ⟨rfl, hrow⟩ hnear
    refine ⟨doc', g', e, ps, h, he, hps, ?_⟩
    rw [hd.length]
    simp only [refRect, lineRect, sideMiddle, hk, hk']
    push_cast
    rw [abs_sub_comm (j : Rat), ← e35]
    have e1 : ∀ a b c f : Rat, a = 40 → b = 35 * f → c = 40 → |a| + |b| + |c| = 80 + |35 * f| := by
      rintro _ _ _ f rfl rfl rfl
      norm_num
      ring
    exact e1 _ _ _ _ (by ring) (by ring) (by ring)
  · obtain ⟨doc', g', e, ps, h, he, hps, hd⟩ := C106_to_the_left hq m hsize i _ _ hi ⟨rfl, hrow⟩ hnear
    refine ⟨doc', g', e, ps, h, he, hps, ?_⟩
    rw [hd.length]
    simp only [refRect, lineRect, sideMiddle, hk, hk']
    push_cast
    rw [← e35]
    have e1 : ∀ a b c f : Rat, a = -40 → b = 35 * f → c = -40 → |a| + |b| + |c| = 80 + |35 * f| := by
      rintro _ _ _ f rfl rfl rfl
      norm_num
      ring
    exact e1 _ _ _ _ (by ring) (by ring) (by ring)

/-! Two tables side by side with two columns each and two relations: one along a line, one upwards and against the order of the tables. -/

def sideBySide : Module :=
  ⟨none, [.definition ⟨c!"a", [⟨c!"x", .int, none⟩, ⟨c!"y", .int, none⟩]⟩, .definition ⟨c!"b", [⟨c!"x", .int, none⟩, ⟨c!"y", .int, none⟩]⟩,
    .relation ⟨.field c!"a" c!"x", .field c!"b" c!"x"⟩, .relation ⟨.field c!"b" c!"y", .field c!"a" c!"x"⟩]⟩

/-- It meets the hypotheses. -/
example : (connections [] sideBySide.entries)[0]? = some (.column 0 0, .column 1 0) ∧
    (connections [] sideBySide.entries)[1]? = some (.column 1 1, .column 0 0) ∧ SideBySide (.column 0 0) (.column 1 1) ∧
    Near (lineNumbers (definitions sideBySide.entries)) (.column 0 0) (.column 1 1) ∧
    (placeNodes sideBySide.intoMir).2.size.height ≤ 1000000000 :=
  ⟨by decide +kernel, by decide +kernel, ⟨rfl, by decide⟩, .inr ⟨0, 0, 1, rfl, rfl⟩, by decide +kernel⟩

/-- The two lines. -/
example : pathsOf (drawEdgePath BinHeap.queue (laidOut sideBySide.intoMir) .new) =
      some [some [⟨350, 205/2⟩, ⟨390, 205/2⟩, ⟨430, 205/2⟩], some [⟨430, 275/2⟩, ⟨390, 275/2⟩, ⟨390, 205/2⟩, ⟨350, 205/2⟩]] ∧
    pathLength [⟨430, 275/2⟩, ⟨390, 275/2⟩, ⟨390, 205/2⟩, ⟨350, 205/2⟩] = 80 + 35 * |((0 : Nat) : Rat) - (1 : Nat)| := by
  constructor
  · decide +kernel
  · norm_num [pathLength, distance]

set_option maxRecDepth 1000000 in
/-- Whole tables of different heights are not joined like that: here the way over the second table is the shorter one. -/
theorem C106_tables : pathsOf (drawEdgePath BinHeap.queue (laidOut (⟨none, [.definition ⟨c!"a", [⟨c!"x", .int, none⟩]⟩,
      .definition ⟨c!"b", (List.range 20).map fun _ => ⟨c!"x", .int, none⟩⟩, .relation ⟨.entity c!"a", .entity c!"b"⟩]⟩ : Module).intoMir) .new) =
    some [some [⟨350, 85⟩, ⟨390, 85⟩, ⟨390, 10⟩, ⟨580, 10⟩, ⟨580, 50⟩]] := by decide +kernel

end Seiren
