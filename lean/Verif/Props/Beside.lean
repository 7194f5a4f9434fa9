import Verif.Proofs.Beside
import Verif.Props.Neighbours
/-! # C108: two columns of one table are joined beside it

A relation between two columns of the same table leaves the table at one side, runs up or down in the gap there, and comes back to the
same side. -/

namespace Seiren
open Spec Grid

/-- **C108.** A relation between two columns of a table is drawn beside it: out at one side, along the middle of the gap there, and in
again at the same side. -/
theorem C108_beside {q : Queue} {QI : List Entry → Prop} (hq : q.Lawful QI) (m : Module)
    (hsize : (placeNodes m.intoMir).2.size.height ≤ 1000000000) (i k j j' : Nat) (hne : j ≠ j')
    (hi : (connections [] m.entries)[i]? = some (.column k j, .column k j')) :
    ∃ doc' g' e ps y y', drawEdgePath q (laidOut m.intoMir) .new = .ok (doc', g') ∧ doc'.edges[i]? = some e ∧ e.pathPoints = some ps ∧
      y = rowTop (lineNumbers (definitions m.entries)) (k / 3) + 35 * (j + 1) + 35 / 2 ∧
      y' = rowTop (lineNumbers (definitions m.entries)) (k / 3) + 35 * (j' + 1) + 35 / 2 ∧
      (Direct (390 + 380 * (k % 3 : Nat)) ⟨350 + 380 * (k % 3 : Nat), y⟩ ⟨350 + 380 * (k % 3 : Nat), y'⟩ ps ∨
        Direct (10 + 380 * (k % 3 : Nat)) ⟨50 + 380 * (k % 3 : Nat), y⟩ ⟨50 + 380 * (k % 3 : Nat), y'⟩ ps) := by
  obtain ⟨doc', g', h, -⟩ := drawn_connections hq m hsize
  obtain ⟨e, ps, he, hps, hr, hmin, -⟩ := path_at hq m hsize doc' g' h i _ hi
  have hnd := C106_no_point_twice hq m hsize doc' g' h e (List.mem_of_getElem? he) ps hps
  refine ⟨doc', g', e, ps, _, _, h, he, hps, rfl, rfl, ?_⟩
  obtain ⟨hw, ⟨a, o, ha, hae⟩, b, o', hb, hbe⟩ := hr
  have hm := List.mem_of_getElem? hi
  have hsub : ∀ x, x ∈ endsOf (lineNumbers (definitions m.entries)) (.column k j) ∨
      x ∈ endsOf (lineNumbers (definitions m.entries)) (.column k j') →
      x ∈ allEnds (lineNumbers (definitions m.entries)) (connections [] m.entries) :=
    fun x hx => List.mem_flatMap.mpr ⟨_, hm, List.mem_append.mpr hx⟩
  have hv := (ok_module m).valid _ hm
  have hlast : (lineNumbers (definitions m.entries))[k]? ≠ some (j + 2) ∨ (lineNumbers (definitions m.entries))[k]? ≠ some (j' + 2) := by
    by_contra hcon
    push Not at hcon
    have := hcon.1.symm.trans hcon.2
    simp only [Option.some.injEq] at this
    omega
  have := beside (ok_module m) rfl (.inr hne) hv.1 hv.2 (r := k / 3) (d := 0) ⟨le_rfl, le_rfl⟩ ⟨le_rfl, le_rfl⟩ (.inl ⟨by omega, hlast⟩)
    (fun x hx => hsub x (.inl hx)) (fun x hx => hsub x (.inr hx)) hw hnd ha hb hae hbe
    (fun w' ps' a' b' u u' hf ha' hb' hu hu' => hmin ps' ⟨⟨w', hf⟩, ⟨a', u, ha', hu⟩, b', u', hb', hu'⟩)
  have e1 : ∀ x : Rat, 50 + x + 300 = 350 + x := fun x => by ring
  have e2 : ∀ x : Rat, 350 + x + 40 = 390 + x := fun x => by ring
  have e3 : ∀ x : Rat, 50 + x - 40 = 10 + x := fun x => by ring
  simp only [lineRect, sideMiddle, e1, e2, e3] at this
  push_cast at this ⊢
  exact this

/-- **C108.** It is as long as the gap is wide and the columns are apart. -/
theorem C108_length {q : Queue} {QI : List Entry → Prop} (hq : q.Lawful QI) (m : Module)
    (hsize : (placeNodes m.intoMir).2.size.height ≤ 1000000000) (i k j j' : Nat) (hne : j ≠ j')
    (hi : (connections [] m.entries)[i]? = some (.column k j, .column k j')) :
    ∃ doc' g' e ps, drawEdgePath q (laidOut m.intoMir) .new = .ok (doc', g') ∧ doc'.edges[i]? = some e ∧ e.pathPoints = some ps ∧
      pathLength ps = 80 + 35 * |(j : Rat) - j'| := by
  obtain ⟨doc', g', e, ps, y, y', h, he, hps, rfl, rfl, hd⟩ := C108_beside hq m hsize i k j j' hne hi
  refine ⟨doc', g', e, ps, h, he, hps, ?_⟩
  have e35 : ∀ r : Rat, |35 * r| = 35 * |r| := fun r => by rw [abs_mul]; norm_num
  have e1 : ∀ a b c f : Rat, (a = 40 ∨ a = -40) → b = 35 * f → (c = 40 ∨ c = -40) → |a| + |b| + |c| = 80 + |35 * f| := by
    rintro _ _ _ f (rfl | rfl) rfl (rfl | rfl) <;> norm_num <;> ring
  rw [abs_sub_comm (j : Rat), ← e35]
  rcases hd with hd | hd
  · rw [hd.length]
    exact e1 _ _ _ _ (.inl (by ring)) (by ring) (.inr (by ring))
  · rw [hd.length]
    exact e1 _ _ _ _ (.inr (by ring)) (by ring) (.inl (by ring))

/-! A table with three columns and two relations between them. -/

def oneTable : Module :=
  ⟨none, [.definition ⟨c!"a", [⟨c!"x", .int, none⟩, ⟨c!"y", .int, none⟩, ⟨c!"z", .int, none⟩]⟩,
    .relation ⟨.field c!"a" c!"x", .field c!"a" c!"z"⟩, .relation ⟨.field c!"a" c!"y", .field c!"a" c!"x"⟩]⟩

/-- It meets the hypotheses. -/
example : (connections [] oneTable.entries)[0]? = some (.column 0 0, .column 0 2) ∧
    (connections [] oneTable.entries)[1]? = some (.column 0 1, .column 0 0) ∧ (placeNodes oneTable.intoMir).2.size.height ≤ 1000000000 :=
  ⟨by decide +kernel, by decide +kernel, by decide +kernel⟩

set_option maxRecDepth 1000000 in
/-- Both run along the right side. -/
theorem C108_right : pathsOf (drawEdgePath BinHeap.queue (laidOut oneTable.intoMir) .new) =
    some [some [⟨350, 205/2⟩, ⟨390, 205/2⟩, ⟨390, 275/2⟩, ⟨390, 345/2⟩, ⟨350, 345/2⟩],
      some [⟨350, 275/2⟩, ⟨390, 275/2⟩, ⟨390, 205/2⟩, ⟨350, 205/2⟩]] := by decide +kernel

set_option maxRecDepth 1000000 in
/-- The left side is possible as well: the corner of the other table's frame cuts the way there into two pieces, and rounding makes them
cheaper than one. -/
theorem C108_left : pathsOf (drawEdgePath BinHeap.queue (laidOut (⟨none, [.definition ⟨c!"a", []⟩,
      .definition ⟨c!"b", [⟨c!"w", .int, none⟩, ⟨c!"x", .int, none⟩, ⟨c!"y", .int, none⟩, ⟨c!"z", .int, none⟩]⟩,
      .relation ⟨.field c!"b" c!"w", .field c!"b" c!"z"⟩]⟩ : Module).intoMir) .new) =
    some [some [⟨430, 205/2⟩, ⟨390, 205/2⟩, ⟨390, 125⟩, ⟨390, 415/2⟩, ⟨430, 415/2⟩]] := by decide +kernel

set_option maxRecDepth 1000000 in
/-- A whole table and one of its columns are not joined like that: here the way over the top is the shorter one. -/
theorem C108_whole_table : pathsOf (drawEdgePath BinHeap.queue (laidOut (⟨none, [.definition ⟨c!"a", (List.range 20).map fun i =>
      ⟨List.replicate (i + 1) 'x', .int, none⟩⟩, .relation ⟨.entity c!"a", .field c!"a" c!"x"⟩]⟩ : Module).intoMir) .new) =
    some [some [⟨200, 50⟩, ⟨200, 10⟩, ⟨390, 10⟩, ⟨390, 205/2⟩, ⟨350, 205/2⟩]] := by decide +kernel

end Seiren
