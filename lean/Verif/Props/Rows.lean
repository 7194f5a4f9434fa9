import Verif.Props.Beside
/-! # C109: columns of tables in different rows

The streets between the tables run past all rows. A relation between two columns whose tables stand in neighbouring columns of the
drawing, or in the same one, is drawn along the street there, also when the tables are in different rows. -/

namespace Seiren
open Spec Grid

/-- The height at which lines leave or enter column `j` of table `k`. -/
def Spec.lineHeight (ns : List Nat) (k j : Nat) : Rat := rowTop ns (k / 3) + 35 * (j + 1) + 35 / 2

/-- The tables are at most `n` rows apart. -/
def Spec.RowsWithin (n k k' : Nat) : Prop := k / 3 ≤ k' / 3 + n ∧ k' / 3 ≤ k / 3 + n

/-- At most seventeen rows apart and neither a last column, or at most three rows apart and not both last columns. -/
def Spec.Aside (m : Module) (k j k' j' : Nat) : Prop :=
  RowsWithin 17 k k' ∧ ¬ LastColumn (definitions m.entries) (.column k j) ∧ ¬ LastColumn (definitions m.entries) (.column k' j') ∨
    RowsWithin 3 k k' ∧ ¬ (LastColumn (definitions m.entries) (.column k j) ∧ LastColumn (definitions m.entries) (.column k' j'))

theorem lastColumn_lines {m : Module} {k j : Nat} (h : (lineNumbers (definitions m.entries))[k]? = some (j + 2)) :
    LastColumn (definitions m.entries) (.column k j) := by
  simp only [lineNumbers, List.getElem?_map, Option.map_eq_some_iff] at h
  obtain ⟨d, h1, h2⟩ := h
  exact ⟨d, h1, by omega⟩

/-- The first of the rows and how many there are after it. -/
theorem rows_within {n k k' : Nat} (h : RowsWithin n k k') :
    ∃ r d, d ≤ n ∧ (r ≤ k / 3 ∧ k / 3 ≤ r + d) ∧ r ≤ k' / 3 ∧ k' / 3 ≤ r + d := by
  obtain ⟨h1, h2⟩ := h
  exact ⟨min (k / 3) (k' / 3), max (k / 3) (k' / 3) - min (k / 3) (k' / 3), by omega, by omega, by omega⟩

/-- **C109.** A relation from a column to a column of a table one to the right and at most eight rows away is drawn out of the right side
of the first, along the middle of the gap, and into the left side of the second. -/
theorem C109_to_the_right {q : Queue} {QI : List Entry → Prop} (hq : q.Lawful QI) (m : Module)
    (hsize : (placeNodes m.intoMir).2.size.height ≤ 1000000000) (i k j k' j' : Nat) (hcol : k' % 3 = k % 3 + 1) (hrow : RowsWithin 8 k k')
    (hi : (connections [] m.entries)[i]? = some (.column k j, .column k' j')) :
    ∃ doc' g' e ps, drawEdgePath q (laidOut m.intoMir) .new = .ok (doc', g') ∧ doc'.edges[i]? = some e ∧ e.pathPoints = some ps ∧
      Direct (390 + 380 * (k % 3 : Nat)) ⟨350 + 380 * (k % 3 : Nat), lineHeight (lineNumbers (definitions m.entries)) k j⟩
        ⟨430 + 380 * (k % 3 : Nat), lineHeight (lineNumbers (definitions m.entries)) k' j'⟩ ps := by
  obtain ⟨doc', g', h, -⟩ := drawn_connections hq m hsize
  obtain ⟨e, ps, he, hps, hr, hmin, -⟩ := path_at hq m hsize doc' g' h i _ hi
  have hn := C106_no_point_twice hq m hsize doc' g' h e (List.mem_of_getElem? he) ps hps
  obtain ⟨r, d, hd, hrs, hrt⟩ := rows_within hrow
  have := direct_rows (ok_module m) (.inl (List.mem_of_getElem? hi)) hcol hd hrs hrt (.inr ⟨⟨_, _, rfl⟩, _, _, rfl⟩) hr hn hmin
  refine ⟨doc', g', e, ps, h, he, hps, ?_⟩
  have e1 : ∀ x : Rat, 50 + x + 300 = 350 + x := fun x => by ring
  have e2 : ∀ x : Rat, 350 + x + 40 = 390 + x := fun x => by ring
  have e3 : ∀ x : Rat, 50 + 380 * (x + 1) = 430 + 380 * x := fun x => by ring
  simp only [refRect, lineRect, sideMiddle, e1, e2, hcol] at this
  push_cast at this
  simp only [e3] at this
  exact this

/-- **C109.** The relation the other way round is drawn along the same middle of the gap, backwards. -/
theorem C109_to_the_left {q : Queue} {QI : List Entry → Prop} (hq : q.Lawful QI) (m : Module)
    (hsize : (placeNodes m.intoMir).2.size.height ≤ 1000000000) (i k j k' j' : Nat) (hcol : k' % 3 = k % 3 + 1) (hrow : RowsWithin 8 k k')
    (hi : (connections [] m.entries)[i]? = some (.column k' j', .column k j)) :
    ∃ doc' g' e ps, drawEdgePath q (laidOut m.intoMir) .new = .ok (doc', g') ∧ doc'.edges[i]? = some e ∧ e.pathPoints = some ps ∧
      Direct (390 + 380 * (k % 3 : Nat)) ⟨430 + 380 * (k % 3 : Nat), lineHeight (lineNumbers (definitions m.entries)) k' j'⟩
        ⟨350 + 380 * (k % 3 : Nat), lineHeight (lineNumbers (definitions m.entries)) k j⟩ ps := by
  obtain ⟨doc', g', h, -⟩ := drawn_connections hq m hsize
  obtain ⟨e, ps, he, hps, hr, hmin, -⟩ := path_at hq m hsize doc' g' h i _ hi
  have hn := C106_no_point_twice hq m hsize doc' g' h e (List.mem_of_getElem? he) ps hps
  obtain ⟨r, d, hd, hrs, hrt⟩ := rows_within hrow
  have := direct_rows (ok_module m) (.inr (List.mem_of_getElem? hi)) hcol hd hrs hrt (.inr ⟨⟨_, _, rfl⟩, _, _, rfl⟩) hr.reverse
    (List.nodup_reverse.mpr hn)
    (fun ps' hr' => by
      have := hmin _ hr'.reverse
      rw [routeCost_reverse] at this ⊢
      exact this)
  have := this.reverse
  rw [List.reverse_reverse] at this
  refine ⟨doc', g', e, ps, h, he, hps, ?_⟩
  have e1 : ∀ x : Rat, 50 + x + 300 = 350 + x := fun x => by ring
  have e2 : ∀ x : Rat, 350 + x + 40 = 390 + x := fun x => by ring
  have e3 : ∀ x : Rat, 50 + 380 * (x + 1) = 430 + 380 * x := fun x => by ring
  simp only [refRect, lineRect, sideMiddle, e1, e2, hcol] at this
  push_cast at this
  simp only [e3] at this
  exact this

/-- **C109.** A relation between columns of two tables one above the other, not too far apart and not both last columns, is drawn beside the tables: out at one side, along the middle of the gap there, and in again at the same side. -/
theorem C109_one_above {q : Queue} {QI : List Entry → Prop} (hq : q.Lawful QI) (m : Module)
    (hsize : (placeNodes m.intoMir).2.size.height ≤ 1000000000) (i k j k' j' : Nat) (hne : k ≠ k') (hcol : k' % 3 = k % 3)
    (hrow : Aside m k j k' j')
    (hi : (connections [] m.entries)[i]? = some (.column k j, .column k' j')) :
    ∃ doc' g' e ps y y', drawEdgePath q (laidOut m.intoMir) .new = .ok (doc', g') ∧ doc'.edges[i]? = some e ∧ e.pathPoints = some ps ∧
      y = lineHeight (lineNumbers (definitions m.entries)) k j ∧ y' = lineHeight (lineNumbers (definitions m.entries)) k' j' ∧
      (Direct (390 + 380 * (k % 3 : Nat)) ⟨350 + 380 * (k % 3 : Nat), y⟩ ⟨350 + 380 * (k % 3 : Nat), y'⟩ ps ∨
        Direct (10 + 380 * (k % 3 : Nat)) ⟨50 + 380 * (k % 3 : Nat), y⟩ ⟨50 + 380 * (k % 3 : Nat), y'⟩ ps) := by
  obtain ⟨doc', g', h, -⟩ := drawn_connections hq m hsize
  obtain ⟨e, ps, he, hps, hr, hmin, -⟩ := path_at hq m hsize doc' g' h i _ hi
  have hnd := C106_no_point_twice hq m hsize doc' g' h e (List.mem_of_getElem? he) ps hps
  refine ⟨doc', g', e, ps, _, _, h, he, hps, rfl, rfl, ?_⟩
  obtain ⟨hw, ⟨a, o, ha, hae⟩, b, o', hb, hbe⟩ := hr
  have hm := List.mem_of_getElem? hi
  have hsub : ∀ x, x ∈ endsOf (lineNumbers (definitions m.entries)) (.column k j) ∨
      x ∈ endsOf (lineNumbers (definitions m.entries)) (.column k' j') →
      x ∈ allEnds (lineNumbers (definitions m.entries)) (connections [] m.entries) :=
    fun x hx => List.mem_flatMap.mpr ⟨_, hm, List.mem_append.mpr hx⟩
  have hv := (ok_module m).valid _ hm
  obtain ⟨r, d, hrs, hrt, hlast⟩ : ∃ r d, (r ≤ k / 3 ∧ k / 3 ≤ r + d) ∧ (r ≤ k' / 3 ∧ k' / 3 ≤ r + d) ∧
      ((d ≤ 3 ∧ ((lineNumbers (definitions m.entries))[k]? ≠ some (j + 2) ∨ (lineNumbers (definitions m.entries))[k']? ≠ some (j' + 2))) ∨
        d ≤ 17 ∧ (lineNumbers (definitions m.entries))[k]? ≠ some (j + 2) ∧ (lineNumbers (definitions m.entries))[k']? ≠ some (j' + 2)) := by
    rcases hrow with ⟨hrow, h1, h2⟩ | ⟨hrow, h1⟩ <;> obtain ⟨r, d, hd, hrs, hrt⟩ := rows_within hrow
    · exact ⟨r, d, hrs, hrt, .inr ⟨hd, fun e => h1 (lastColumn_lines e), fun e => h2 (lastColumn_lines e)⟩⟩
    · refine ⟨r, d, hrs, hrt, .inl ⟨hd, ?_⟩⟩
      by_contra hcon
      push Not at hcon
      exact h1 ⟨lastColumn_lines hcon.1, lastColumn_lines hcon.2⟩
  have := beside (ok_module m) hcol (.inl hne) hv.1 hv.2 hrs hrt hlast
    (fun x hx => hsub x (.inl hx)) (fun x hx => hsub x (.inr hx)) hw hnd ha hb hae hbe
    (fun w' ps' a' b' u u' hf ha' hb' hu hu' => hmin ps' ⟨⟨w', hf⟩, ⟨a', u, ha', hu⟩, b', u', hb', hu'⟩)
  have e1 : ∀ x : Rat, 50 + x + 300 = 350 + x := fun x => by ring
  have e2 : ∀ x : Rat, 350 + x + 40 = 390 + x := fun x => by ring
  have e3 : ∀ x : Rat, 50 + x - 40 = 10 + x := fun x => by ring
  simp only [lineRect, sideMiddle, e1, e2, e3, hcol] at this
  simp only [lineHeight]
  push_cast at this ⊢
  exact this

/-- **C109.** All of these lines are as long as the gap is wide and the columns are apart in height. -/
theorem C109_length {q : Queue} {QI : List Entry → Prop} (hq : q.Lawful QI) (m : Module)
    (hsize : (placeNodes m.intoMir).2.size.height ≤ 1000000000) (i k j k' j' : Nat)
    (hcol : (k' % 3 = k % 3 + 1 ∨ k % 3 = k' % 3 + 1) ∧ RowsWithin 8 k k' ∨
      k ≠ k' ∧ k' % 3 = k % 3 ∧ Aside m k j k' j')
    (hi : (connections [] m.entries)[i]? = some (.column k j, .column k' j')) :
    ∃ doc' g' e ps, drawEdgePath q (laidOut m.intoMir) .new = .ok (doc', g') ∧ doc'.edges[i]? = some e ∧ e.pathPoints = some ps ∧
      pathLength ps = 80 + |lineHeight (lineNumbers (definitions m.entries)) k j - lineHeight (lineNumbers (definitions m.entries)) k' j'| := by
  have e1 : ∀ a b c f : Rat, (a = 40 ∨ a = -40) → (c = 40 ∨ c = -40) → |a| + |b - f| + |c| = 80 + |f - b| := by
    rintro _ b _ f (rfl | rfl) (rfl | rfl) <;> rw [abs_sub_comm b] <;> norm_num <;> ring
  rcases hcol with ⟨hcol | hcol, hrow⟩ | ⟨hne, hcol, hrow⟩
  · obtain ⟨doc', g', e, ps, h, he, hps, hd⟩ := C109_to_the_right hq m hsize i k j k' j' hcol hrow hi
    refine ⟨doc', g', e, ps, h, he, hps, ?_⟩
    rw [hd.length]
    exact e1 _ _ _ _ (.inl (by ring)) (.inl (by ring))
  · obtain ⟨doc', g', e, ps, h, he, hps, hd⟩ := C109_to_the_left hq m hsize i k' j' k j hcol hrow.symm hi
    refine ⟨doc', g', e, ps, h, he, hps, ?_⟩
    rw [hd.length]
    exact e1 _ _ _ _ (.inr (by ring)) (.inr (by ring))
  · obtain ⟨doc', g', e, ps, y, y', h, he, hps, rfl, rfl, hd⟩ := C109_one_above hq m hsize i k j k' j' hne hcol hrow hi
    refine ⟨doc', g', e, ps, h, he, hps, ?_⟩
    rcases hd with hd | hd
    · rw [hd.length]
      exact e1 _ _ _ _ (.inl (by ring)) (.inr (by ring))
    · rw [hd.length]
      exact e1 _ _ _ _ (.inr (by ring)) (.inl (by ring))

/-! Five tables, the last two in the second row, and three relations: down to the right, down to the left, and down. The first ends at a
last column, so do the second, on both sides, and the third on one. -/

def twoRows : Module :=
  ⟨none, [.definition ⟨c!"a", [⟨c!"x", .int, none⟩, ⟨c!"y", .int, none⟩]⟩, .definition ⟨c!"b", [⟨c!"x", .int, none⟩]⟩,
    .definition ⟨c!"c", []⟩, .definition ⟨c!"d", [⟨c!"x", .int, none⟩, ⟨c!"y", .int, none⟩]⟩, .definition ⟨c!"e", [⟨c!"x", .int, none⟩]⟩,
    .relation ⟨.field c!"a" c!"x", .field c!"e" c!"x"⟩, .relation ⟨.field c!"b" c!"x", .field c!"d" c!"y"⟩,
    .relation ⟨.field c!"a" c!"x", .field c!"d" c!"y"⟩]⟩

/-- It meets the hypotheses. -/
example : connections [] twoRows.entries =
      [(.column 0 0, .column 4 0), (.column 1 0, .column 3 1), (.column 0 0, .column 3 1)] ∧
    RowsWithin 8 0 4 ∧ RowsWithin 8 3 1 ∧ Aside twoRows 0 0 3 1 ∧ (placeNodes twoRows.intoMir).2.size.height ≤ 1000000000 := by
  refine ⟨by decide +kernel, ⟨by decide, by decide⟩, ⟨by decide, by decide⟩, .inr ⟨⟨by decide, by decide⟩, ?_⟩, by decide +kernel⟩
  rintro ⟨⟨d, h1, h2⟩, -⟩
  simp only [show definitions twoRows.entries = [⟨c!"a", [⟨c!"x", .int, none⟩, ⟨c!"y", .int, none⟩]⟩, ⟨c!"b", [⟨c!"x", .int, none⟩]⟩,
    ⟨c!"c", []⟩, ⟨c!"d", [⟨c!"x", .int, none⟩, ⟨c!"y", .int, none⟩]⟩, ⟨c!"e", [⟨c!"x", .int, none⟩]⟩] from rfl] at h1
  cases h1
  simp at h2

set_option maxRecDepth 1000000 in
/-- The three lines. -/
theorem C109_lines : pathsOf (drawEdgePath BinHeap.queue (laidOut twoRows.intoMir) .new) =
    some [some [⟨350, 205/2⟩, ⟨390, 205/2⟩, ⟨390, 160⟩, ⟨390, 195⟩, ⟨390, 575/2⟩, ⟨430, 575/2⟩],
      some [⟨430, 205/2⟩, ⟨390, 205/2⟩, ⟨390, 160⟩, ⟨390, 195⟩, ⟨390, 575/2⟩, ⟨390, 645/2⟩, ⟨350, 645/2⟩],
      some [⟨350, 205/2⟩, ⟨390, 205/2⟩, ⟨390, 160⟩, ⟨390, 195⟩, ⟨390, 575/2⟩, ⟨390, 645/2⟩, ⟨350, 645/2⟩]] := by decide +kernel

end Seiren
