import Verif.Proofs.Above
import Verif.Props.Neighbours
/-! # C107: tables one above the other are joined by a straight line -/

namespace Seiren
open Spec Grid

/-- A path straight down from `a` to `b`. -/
def Spec.Plumb (a b : Point) (ps : List Point) : Prop :=
  ps.head? = some a ∧ ps.getLast? = some b ∧ (∀ p ∈ ps, p.x = a.x) ∧ ps.Pairwise (fun p q => p.y < q.y)

/-- Relations end at the lower side of a table and at that of its last column. -/
def Spec.AtBottom (ns : List Nat) (k : Nat) : NodeRef → Prop
  | .table i => i = k
  | .column i j => i = k ∧ ns[k]? = some (j + 2)

theorem bottom_end {ns : List Nat} {k n : Nat} (hn : ns[k]? = some n) {s : NodeRef} (hs : AtBottom ns k s) :
    (⟨200 + 380 * ((k % 3 : Nat) : Rat), rowTop ns (k / 3) + 35 * (n : Rat)⟩, .down) ∈ endsOf ns s := by
  cases s with
  | table i =>
    obtain rfl := hs
    rw [table_ends hn]
    simp
  | column i j =>
    obtain ⟨rfl, hj⟩ := hs
    rw [hn] at hj
    cases hj
    rw [last_ends hn]
    simp

theorem bottom_ends {ns : List Nat} {k n : Nat} (hn : ns[k]? = some n) (h1 : 1 ≤ n) {s : NodeRef} (hs : AtBottom ns k s) {a : Point}
    {o : Orientation} (ha : (a, o) ∈ endsOf ns s) :
    a = ⟨200 + 380 * ((k % 3 : Nat) : Rat), rowTop ns (k / 3) + 35 * (n : Rat)⟩ ∨
      a.x = 200 + 380 * ((k % 3 : Nat) : Rat) ∧ a.y < rowTop ns (k / 3) + 35 * (n : Rat) ∨
      |a.x - (200 + 380 * ((k % 3 : Nat) : Rat))| = 150 ∧ a.y ≤ rowTop ns (k / 3) + 35 * (n : Rat) - 35 / 2 := by
  have c1 : (1 : Rat) ≤ n := by exact_mod_cast h1
  have r : |(350 + 380 * ((k % 3 : Nat) : Rat)) - (200 + 380 * ((k % 3 : Nat) : Rat))| = 150 := by
    rw [show (350 + 380 * ((k % 3 : Nat) : Rat)) - (200 + 380 * ((k % 3 : Nat) : Rat)) = 150 by ring]; norm_num
  have l : |(50 + 380 * ((k % 3 : Nat) : Rat)) - (200 + 380 * ((k % 3 : Nat) : Rat))| = 150 := by
    rw [show (50 + 380 * ((k % 3 : Nat) : Rat)) - (200 + 380 * ((k % 3 : Nat) : Rat)) = -150 by ring]; norm_num
  cases s with
  | table i =>
    obtain rfl := hs
    rw [table_ends hn] at ha
    have ex : (50 + 380 * ((i % 3 : Nat) : Rat)) + 300 = 350 + 380 * ((i % 3 : Nat) : Rat) := by ring
    simp only [List.mem_cons, Prod.mk.injEq, List.not_mem_nil, or_false, refRect, hn, Option.getD_some, tableRect, sideMiddle] at ha
    rcases ha with ⟨rfl, -⟩ | ⟨rfl, -⟩ | ⟨rfl, -⟩ | ⟨rfl, -⟩
    · exact .inr (.inl ⟨rfl, by simp only; linarith⟩)
    · exact .inr (.inr ⟨by simp only [ex]; exact r, by simp only; linarith⟩)
    · exact .inl rfl
    · exact .inr (.inr ⟨l, by simp only; linarith⟩)
  | column i j =>
    obtain ⟨rfl, hj⟩ := hs
    rw [hn] at hj
    cases hj
    rw [last_ends hn] at ha
    simp only [List.mem_cons, Prod.mk.injEq, List.not_mem_nil, or_false] at ha
    rcases ha with ⟨rfl, -⟩ | ⟨rfl, -⟩ | ⟨rfl, -⟩
    · exact .inr (.inr ⟨r, le_refl _⟩)
    · exact .inl rfl
    · exact .inr (.inr ⟨l, le_refl _⟩)

theorem top_ends {ns : List Nat} {k n : Nat} (hn : ns[k]? = some n) (h1 : 1 ≤ n) {b : Point} {o : Orientation}
    (hb : (b, o) ∈ endsOf ns (.table k)) :
    b = ⟨200 + 380 * ((k % 3 : Nat) : Rat), rowTop ns (k / 3)⟩ ∨
      b.x = 200 + 380 * ((k % 3 : Nat) : Rat) ∧ rowTop ns (k / 3) < b.y ∨
      |b.x - (200 + 380 * ((k % 3 : Nat) : Rat))| = 150 ∧ rowTop ns (k / 3) + 35 / 2 ≤ b.y := by
  have c1 : (1 : Rat) ≤ n := by exact_mod_cast h1
  rw [table_ends hn] at hb
  simp only [List.mem_cons, Prod.mk.injEq, List.not_mem_nil, or_false, refRect, hn, Option.getD_some, tableRect, sideMiddle] at hb
  rcases hb with ⟨rfl, -⟩ | ⟨rfl, -⟩ | ⟨rfl, -⟩ | ⟨rfl, -⟩
  · exact .inl rfl
  · refine .inr (.inr ⟨?_, by simp only; linarith⟩)
    rw [show (50 + 380 * ((k % 3 : Nat) : Rat)) + 300 - (200 + 380 * ((k % 3 : Nat) : Rat)) = 150 by ring]; norm_num
  · exact .inr (.inl ⟨rfl, by simp only; linarith⟩)
  · refine .inr (.inr ⟨?_, by simp only; linarith⟩)
    simp only
    rw [show (50 + 380 * ((k % 3 : Nat) : Rat)) - (200 + 380 * ((k % 3 : Nat) : Rat)) = -150 by ring]; norm_num

/-- What both directions have in common. -/
theorem plumb_route {ns : List Nat} {cs : List (NodeRef × NodeRef)} (hok : Ok ns cs) {s : NodeRef} {k n : Nat} (hn : ns[k]? = some n)
    (hs : AtBottom ns k s) (hm : (s, .table (k + 3)) ∈ cs ∨ (.table (k + 3), s) ∈ cs)
    {ps : List Point} (hr : IsRoute ns cs (s, .table (k + 3)) ps) (hnd : ps.Nodup)
    (hmin : ∀ ps', IsRoute ns cs (s, .table (k + 3)) ps' → routeCost ps ≤ routeCost ps') :
    Plumb ⟨200 + 380 * ((k % 3 : Nat) : Rat), rowTop ns (k / 3) + 35 * (n : Rat)⟩
      ⟨200 + 380 * ((k % 3 : Nat) : Rat), rowTop ns (k / 3 + 1)⟩ ps := by
  obtain ⟨⟨w, hw⟩, ⟨a, o, ha, hae⟩, b, o', hb, hbe⟩ := hr
  have hsub : ∀ x, x ∈ endsOf ns s ∨ x ∈ endsOf ns (.table (k + 3)) → x ∈ allEnds ns cs := by
    intro x hx
    rcases hm with hm | hm
    · exact List.mem_flatMap.mpr ⟨_, hm, List.mem_append.mpr hx⟩
    · exact List.mem_flatMap.mpr ⟨_, hm, List.mem_append.mpr hx.symm⟩
  have hv : ValidRef ns (.table (k + 3)) := by
    rcases hm with hm | hm
    · exact (hok.valid _ hm).2
    · exact (hok.valid _ hm).1
  obtain ⟨n', hn'⟩ := hv
  have e1 : (k + 3) % 3 = k % 3 := by omega
  have e2 : (k + 3) / 3 = k / 3 + 1 := by omega
  have hne := tab_of hn
  have hup : (⟨200 + 380 * ((k % 3 : Nat) : Rat), rowTop ns (k / 3 + 1)⟩, .up) ∈ endsOf ns (.table (k + 3)) := by
    rw [table_ends hn', e1, e2]; simp
  have hdown := bottom_end hn hs
  have htop := top_ends hn' (hok.pos _ _ hn') hbe
  rw [e1, e2] at htop
  have hbot := bottom_ends hn (hok.pos _ _ hn) hs hae
  have hrow : rowTop ns (k / 3 + 1) = rowTop ns (k / 3) + 35 * (tallest ns (k / 3) : Rat) + 80 := rfl
  have hle : (n : Rat) ≤ tallest ns (k / 3) := by exact_mod_cast hne.le
  have hcl : Grid.Clear ns cs (k % 3) (rowTop ns (k / 3) + 35 * (n : Rat)) (rowTop ns (k / 3 + 1)) := by
    intro r m hrm g1 g2
    exfalso
    have p1 := hok.pos _ _ hn
    have p2 := hok.one hrm
    have c1 : (1 : Rat) ≤ n := by exact_mod_cast p1
    rcases Nat.lt_trichotomy r (k / 3) with hlt | rfl | hlt
    · have := hrm.apart hlt
      linarith
    · linarith
    · rcases Nat.lt_or_ge (k / 3 + 1) r with h3 | h3
      · have := rows_apart (ns := ns) h3
        have : (0 : Rat) ≤ tallest ns (k / 3 + 1) := Nat.cast_nonneg _
        linarith
      · obtain rfl : r = k / 3 + 1 := by omega
        linarith
  obtain ⟨ea, eb, h1, h2⟩ := down_shortest hok (hsub _ (.inl hdown)) (hsub _ (.inr hup)) (by rw [hrow]; linarith) hcl
    (by have : (0 : Rat) ≤ n := Nat.cast_nonneg n; linarith : rowTop ns (k / 3) ≤ _) (le_refl _) hw hnd
    (fun w' ps' hf h1 h2 => hmin ps' ⟨⟨w', hf⟩, ⟨_, _, h1, hdown⟩, _, _, h2, hup⟩) ha hb hbot htop
  exact ⟨by rw [ha, ea], by rw [hb, eb], h1, h2⟩

/-- **C107.** A relation from a table, or from its last column, to the table straight below it is drawn straight down, from the lower side
of the one to the upper side of the other. -/
theorem C107_down {q : Queue} {QI : List Entry → Prop} (hq : q.Lawful QI) (m : Module)
    (hsize : (placeNodes m.intoMir).2.size.height ≤ 1000000000) (i k n : Nat) (s : NodeRef)
    (hi : (connections [] m.entries)[i]? = some (s, .table (k + 3))) (hn : (lineNumbers (definitions m.entries))[k]? = some n)
    (hs : AtBottom (lineNumbers (definitions m.entries)) k s) :
    ∃ doc' g' e ps, drawEdgePath q (laidOut m.intoMir) .new = .ok (doc', g') ∧ doc'.edges[i]? = some e ∧ e.pathPoints = some ps ∧
      Plumb ⟨200 + 380 * ((k % 3 : Nat) : Rat), rowTop (lineNumbers (definitions m.entries)) (k / 3) + 35 * (n : Rat)⟩
        ⟨200 + 380 * ((k % 3 : Nat) : Rat), rowTop (lineNumbers (definitions m.entries)) (k / 3 + 1)⟩ ps := by
  obtain ⟨doc', g', h, -⟩ := drawn_connections hq m hsize
  obtain ⟨e, ps, he, hps, hr, hmin, -⟩ := path_at hq m hsize doc' g' h i _ hi
  have hnd := C106_no_point_twice hq m hsize doc' g' h e (List.mem_of_getElem? he) ps hps
  exact ⟨doc', g', e, ps, h, he, hps, plumb_route (ok_module m) hn hs (.inl (List.mem_of_getElem? hi)) hr hnd hmin⟩

/-- **C107.** The other way round it is drawn straight up. -/
theorem C107_up {q : Queue} {QI : List Entry → Prop} (hq : q.Lawful QI) (m : Module)
    (hsize : (placeNodes m.intoMir).2.size.height ≤ 1000000000) (i k n : Nat) (s : NodeRef)
    (hi : (connections [] m.entries)[i]? = some (.table (k + 3), s)) (hn : (lineNumbers (definitions m.entries))[k]? = some n)
    (hs : AtBottom (lineNumbers (definitions m.entries)) k s) :
    ∃ doc' g' e ps, drawEdgePath q (laidOut m.intoMir) .new = .ok (doc', g') ∧ doc'.edges[i]? = some e ∧ e.pathPoints = some ps ∧
      Plumb ⟨200 + 380 * ((k % 3 : Nat) : Rat), rowTop (lineNumbers (definitions m.entries)) (k / 3) + 35 * (n : Rat)⟩
        ⟨200 + 380 * ((k % 3 : Nat) : Rat), rowTop (lineNumbers (definitions m.entries)) (k / 3 + 1)⟩ ps.reverse := by
  obtain ⟨doc', g', h, -⟩ := drawn_connections hq m hsize
  obtain ⟨e, ps, he, hps, hr, hmin, -⟩ := path_at hq m hsize doc' g' h i _ hi
  have hnd := C106_no_point_twice hq m hsize doc' g' h e (List.mem_of_getElem? he) ps hps
  refine ⟨doc', g', e, ps, h, he, hps, plumb_route (ok_module m) hn hs (.inr (List.mem_of_getElem? hi)) hr.reverse
    (List.nodup_reverse.mpr hnd) fun ps' hr' => ?_⟩
  have := hmin _ hr'.reverse
  rw [routeCost_reverse] at this ⊢
  exact this

/-- The length of such a path is the difference in height. -/
theorem Spec.Plumb.length {b : Point} : ∀ {ps : List Point} {a : Point}, Plumb a b ps → pathLength ps = b.y - a.y := by
  intro ps
  induction ps with
  | nil => rintro a ⟨h, -⟩; cases h
  | cons p ps ih =>
    rintro a ⟨h1, h2, h3, h4⟩
    cases h1
    cases ps with
    | nil => cases h2; simp [pathLength]
    | cons z ps =>
      rw [List.getLast?_cons_cons] at h2
      have ez : z.x = p.x := h3 z (by simp)
      have := ih (a := z) ⟨rfl, h2, fun q hq => by rw [h3 q (List.mem_cons_of_mem _ hq), ez], (List.pairwise_cons.mp h4).2⟩
      have hlt := (List.pairwise_cons.mp h4).1 z (by simp)
      rw [pathLength, this, distance, ez, sub_self, abs_zero, abs_of_neg (by linarith)]
      ring

/-- **C107.** Both are as long as the tables are apart: 80 and 35 for each line by which the upper table is shorter than the tallest one of
its row. -/
theorem C107_length {q : Queue} {QI : List Entry → Prop} (hq : q.Lawful QI) (m : Module)
    (hsize : (placeNodes m.intoMir).2.size.height ≤ 1000000000) (i k n : Nat) (s : NodeRef)
    (hi : (connections [] m.entries)[i]? = some (s, .table (k + 3))) (hn : (lineNumbers (definitions m.entries))[k]? = some n)
    (hs : AtBottom (lineNumbers (definitions m.entries)) k s) :
    ∃ doc' g' e ps, drawEdgePath q (laidOut m.intoMir) .new = .ok (doc', g') ∧ doc'.edges[i]? = some e ∧ e.pathPoints = some ps ∧
      pathLength ps = 80 + 35 * ((tallest (lineNumbers (definitions m.entries)) (k / 3) : Rat) - n) := by
  obtain ⟨doc', g', e, ps, h, he, hps, hd⟩ := C107_down hq m hsize i k n s hi hn hs
  refine ⟨doc', g', e, ps, h, he, hps, ?_⟩
  rw [hd.length, rowTop]
  ring

/-! Four tables; the fourth one stands below the first, which is one line shorter than its neighbour. -/

def oneAbove : Module :=
  ⟨none, [.definition ⟨c!"a", [⟨c!"x", .int, none⟩]⟩, .definition ⟨c!"b", [⟨c!"x", .int, none⟩, ⟨c!"y", .int, none⟩]⟩,
    .definition ⟨c!"c", []⟩, .definition ⟨c!"d", [⟨c!"x", .int, none⟩]⟩,
    .relation ⟨.field c!"a" c!"x", .entity c!"d"⟩, .relation ⟨.entity c!"d", .entity c!"a"⟩]⟩

/-- It meets the hypotheses. -/
example : (connections [] oneAbove.entries)[0]? = some (.column 0 0, .table (0 + 3)) ∧
    (connections [] oneAbove.entries)[1]? = some (.table (0 + 3), .table 0) ∧
    (lineNumbers (definitions oneAbove.entries))[0]? = some 2 ∧ AtBottom (lineNumbers (definitions oneAbove.entries)) 0 (.column 0 0) ∧
    AtBottom (lineNumbers (definitions oneAbove.entries)) 0 (.table 0) ∧
    tallest (lineNumbers (definitions oneAbove.entries)) (0 / 3) = 3 ∧ (placeNodes oneAbove.intoMir).2.size.height ≤ 1000000000 :=
  ⟨by decide +kernel, by decide +kernel, by decide +kernel, ⟨rfl, by decide +kernel⟩, rfl, by decide +kernel, by decide +kernel⟩

set_option maxRecDepth 1000000 in
/-- Its lines. -/
example : pathsOf (drawEdgePath BinHeap.queue (laidOut oneAbove.intoMir) .new) =
    some [some [⟨200, 120⟩, ⟨200, 160⟩, ⟨200, 195⟩, ⟨200, 235⟩], some [⟨200, 235⟩, ⟨200, 195⟩, ⟨200, 160⟩, ⟨200, 120⟩]] := by
  decide +kernel

set_option maxRecDepth 1000000 in
/-- The first of two columns has no lower side of its own: its relation is drawn around the table. -/
theorem C107_not_last : pathsOf (drawEdgePath BinHeap.queue (laidOut (⟨none, [.definition ⟨c!"a", [⟨c!"x", .int, none⟩, ⟨c!"y", .int, none⟩]⟩,
      .definition ⟨c!"b", []⟩, .definition ⟨c!"c", []⟩, .definition ⟨c!"d", []⟩,
      .relation ⟨.field c!"a" c!"x", .entity c!"d"⟩]⟩ : Module).intoMir) .new) =
    some [some [⟨350, 205/2⟩, ⟨390, 205/2⟩, ⟨390, 125⟩, ⟨390, 195⟩, ⟨390, 505/2⟩, ⟨350, 505/2⟩]] := by decide +kernel

end Seiren
