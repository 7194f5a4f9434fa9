import Verif.Props.RelationOrder
import Verif.Props.OneRow
import Verif.Proofs.Trips
/-! # C73, C74: the direction of relations, and the true length of their routes -/

namespace Seiren
open Spec

/-! ## Routes run in both directions -/

theorem Spec.Road.symm {ns : List Nat} {pl : List RouteNodeData} {a b : Nat} (h : Road ns pl a b) : Road ns pl b a := by
  obtain ⟨d, h⟩ := h
  exact ⟨d, h.symm⟩

theorem Spec.Follows.reverse {ns : List Nat} {pl : List RouteNodeData} {w : List Nat} {ps : List Point} (h : Follows ns pl w ps) :
    Follows ns pl w.reverse ps.reverse := by
  refine ⟨?_, List.rel_reverse h.2⟩
  intro k a b ha hb
  obtain ⟨hl, -⟩ := List.getElem?_eq_some_iff.mp hb
  rw [List.length_reverse] at hl
  rw [List.getElem?_reverse (by omega)] at ha hb
  refine (h.1 (w.length - 1 - (k + 1)) b a hb ?_).symm
  rw [← ha]
  congr 1
  omega

theorem Spec.IsRoute.reverse {ns : List Nat} {cs : List (NodeRef × NodeRef)} {s t : NodeRef} {ps : List Point}
    (h : IsRoute ns cs (s, t) ps) : IsRoute ns cs (t, s) ps.reverse := by
  obtain ⟨⟨w, hw⟩, h1, h2⟩ := h
  refine ⟨⟨_, hw.reverse⟩, ?_, ?_⟩
  · simpa [List.head?_reverse] using h2
  · simpa [List.getLast?_reverse] using h1

theorem routeCost_reverse (ps : List Point) : routeCost ps.reverse = routeCost ps := by
  induction ps with
  | nil => rfl
  | cons a ps ih =>
    cases ps with
    | nil => rfl
    | cons b ps =>
      rw [List.reverse_cons, routeCost_snoc _ b a (by simp), ih, segmentCost_comm]
      simp only [routeCost]
      ring

/-- The path of relation number `i` of a drawn module. -/
theorem path_at {q : Queue} {QI : List Entry → Prop} (hq : q.Lawful QI) (m : Module)
    (hsize : (placeNodes m.intoMir).2.size.height ≤ 1000000000) (doc' : Document) (g' : RouteGraph)
    (h : drawEdgePath q (laidOut m.intoMir) .new = .ok (doc', g')) (i : Nat) (c : NodeRef × NodeRef)
    (hc : (connections [] m.entries)[i]? = some c) : ∃ e ps, doc'.edges[i]? = some e ∧ e.pathPoints = some ps ∧
      ShortestRoute (lineNumbers (definitions m.entries)) (connections [] m.entries) c ps := by
  have hall := C67_shortest_routes hq m hsize doc' g' h
  obtain ⟨hi, e1⟩ := List.getElem?_eq_some_iff.mp hc
  obtain ⟨hl, hg⟩ := List.forall₂_iff_get.mp hall
  obtain ⟨ps, h1, h2⟩ := hg i hi (hl ▸ hi)
  simp only [List.get_eq_getElem] at h1 h2
  rw [e1] at h2
  exact ⟨_, ps, List.getElem?_eq_getElem _, h1, h2⟩

/-- **C73.** The full claim, that a relation written the other way round is drawn along the same line, is false (`C73_refuted`).
What holds: if two modules (possibly the same one) agree in the numbers of lines of their tables and in the order of first mentions,
and one has a relation from `s` to `t`, the other one from `t` to `s`, then both routes cost the same, and each of them, gone backwards, is
a route of least cost for the other one. -/
theorem C73_direction_partial {q : Queue} {QI : List Entry → Prop} (hq : q.Lawful QI) (a b : Module)
    (ha : (placeNodes a.intoMir).2.size.height ≤ 1000000000) (hb : (placeNodes b.intoMir).2.size.height ≤ 1000000000)
    (hns : lineNumbers (definitions a.entries) = lineNumbers (definitions b.entries))
    (hms : mentions (connections [] a.entries) = mentions (connections [] b.entries))
    (i j : Nat) (s t : NodeRef) (hi : (connections [] a.entries)[i]? = some (s, t)) (hj : (connections [] b.entries)[j]? = some (t, s)) :
    ∃ da ga db gb e e' ps ps', drawEdgePath q (laidOut a.intoMir) .new = .ok (da, ga) ∧
      drawEdgePath q (laidOut b.intoMir) .new = .ok (db, gb) ∧ da.edges[i]? = some e ∧ db.edges[j]? = some e' ∧
      e.pathPoints = some ps ∧ e'.pathPoints = some ps' ∧ routeCost ps = routeCost ps' ∧
      IsRoute (lineNumbers (definitions b.entries)) (connections [] b.entries) (t, s) ps.reverse ∧
      IsRoute (lineNumbers (definitions a.entries)) (connections [] a.entries) (s, t) ps'.reverse ∧
      routeCost ps.reverse = routeCost ps' ∧ routeCost ps'.reverse = routeCost ps := by
  obtain ⟨da, ga, hda, -⟩ := drawn_connections hq a ha
  obtain ⟨db, gb, hdb, -⟩ := drawn_connections hq b hb
  obtain ⟨e, ps, he, hps, h1, h2, -⟩ := path_at hq a ha da ga hda i _ hi
  obtain ⟨e', ps', he', hps', h1', h2', -⟩ := path_at hq b hb db gb hdb j _ hj
  have same : ∀ c ps, IsRoute (lineNumbers (definitions a.entries)) (connections [] a.entries) c ps ↔
      IsRoute (lineNumbers (definitions b.entries)) (connections [] b.entries) c ps := by
    intro c ps
    unfold IsRoute
    rw [hns, places_mentions _ hms]
  have r1 := (same _ _).mp h1.reverse
  have r2 := (same _ _).mpr h1'.reverse
  have c1 := h2 _ r2
  have c2 := h2' _ r1
  rw [routeCost_reverse] at c1 c2
  have hcost : routeCost ps = routeCost ps' := le_antisymm c1 c2
  exact ⟨da, ga, db, gb, e, e', ps, ps', hda, hdb, he, he', hps, hps', hcost, r1, r2, by rw [routeCost_reverse, hcost],
    by rw [routeCost_reverse, hcost]⟩

/-- Nine empty tables `a`, …, `i`. -/
def nineTables (rs : List ModuleEntry) : Module :=
  ⟨none, [c!"a", c!"b", c!"c", c!"d", c!"e", c!"f", c!"g", c!"h", c!"i"].map (fun n => .definition ⟨n, []⟩) ++ rs⟩

set_option maxRecDepth 1000000 in
/-- **C73, refutation.** The first relation turns to the right between the second and the third row of tables, the same relation
written the other way round goes along between the first and the second row. -/
theorem C73_refuted : ∃ ps ps' : List Point,
    pathsOf (drawEdgePath BinHeap.queue (laidOut (nineTables [.relation ⟨.entity c!"a", .entity c!"i"⟩,
      .relation ⟨.entity c!"i", .entity c!"a"⟩]).intoMir) .new) = some [some ps, some ps'] ∧
    ps ≠ ps'.reverse ∧ (⟨390, 240⟩ : Point) ∈ ps ∧ (⟨390, 240⟩ : Point) ∉ ps' :=
  ⟨[⟨350, 135 / 2⟩, ⟨390, 135 / 2⟩, ⟨390, 125⟩, ⟨390, 240⟩, ⟨770, 240⟩, ⟨770, 595 / 2⟩, ⟨810, 595 / 2⟩],
    [⟨810, 595 / 2⟩, ⟨770, 595 / 2⟩, ⟨770, 240⟩, ⟨770, 125⟩, ⟨390, 125⟩, ⟨390, 135 / 2⟩, ⟨350, 135 / 2⟩],
    by decide +kernel⟩

set_option maxRecDepth 1000000 in
/-- That module meets the hypotheses of `C73_direction_partial`, with itself. -/
example : ∃ m : Module, (connections [] m.entries)[0]? = some (.table 0, .table 8) ∧
    (connections [] m.entries)[1]? = some (.table 8, .table 0) ∧ (placeNodes m.intoMir).2.size.height ≤ 1000000000 :=
  ⟨nineTables [.relation ⟨.entity c!"a", .entity c!"i"⟩, .relation ⟨.entity c!"i", .entity c!"a"⟩], by decide +kernel⟩

/-! ## The true length -/

/-- The length of a path of horizontal and vertical segments. -/
def Spec.pathLength : List Point → Rat
  | a :: b :: ps => distance a b + pathLength (b :: ps)
  | _ => 0

/-- The number of vertical segments. -/
def Spec.verticals : List Point → Nat
  | a :: b :: ps => (if a.x = b.x then 1 else 0) + verticals (b :: ps)
  | _ => 0

theorem cost_le_length (ps : List Point) : (routeCost ps : Rat) ≤ pathLength ps := by
  induction ps with
  | nil => simp [routeCost, pathLength]
  | cons a ps ih =>
    cases ps with
    | nil => simp [routeCost, pathLength]
    | cons b ps =>
      simp only [routeCost, pathLength]
      have : (segmentCost a b : Rat) ≤ distance a b := by
        unfold segmentCost distance
        rw [abs_sub_comm b.x, abs_sub_comm b.y]
        exact Rat.floor_le _
      push_cast
      linarith

/-- Each segment is horizontal or vertical. -/
def Spec.Orthogonal (ps : List Point) : Prop :=
  ∀ (k : Nat) (a b : Point), ps[k]? = some a → ps[k + 1]? = some b → a.x = b.x ∨ a.y = b.y

theorem length_le_cost (ps : List Point) (hg : ∀ p ∈ ps, OnGrid p) (ho : Orthogonal ps) :
    pathLength ps ≤ routeCost ps + (verticals ps : Rat) / 2 := by
  induction ps with
  | nil => simp [routeCost, pathLength, verticals]
  | cons a ps ih =>
    cases ps with
    | nil => simp [routeCost, pathLength, verticals]
    | cons b ps =>
      have ih := ih (fun p hp => hg p (by simp [hp])) fun k x y hx hy => ho (k + 1) x y (by simpa using hx) (by simpa using hy)
      obtain ⟨⟨xa, ha⟩, ya, ha'⟩ := hg a (by simp)
      obtain ⟨⟨xb, hb⟩, yb, hb'⟩ := hg b (by simp)
      simp only [routeCost, pathLength, verticals]
      have hd : distance a b = (10 * |xa - xb| : Int) + 5 / 2 * (|ya - yb| : Int) := by
        unfold distance
        rw [ha, hb, ha', hb', ← mul_sub, ← mul_sub, abs_mul, abs_mul]
        push_cast
        rw [abs_of_pos (by norm_num : (0 : Rat) < 10), abs_of_pos (by norm_num : (0 : Rat) < 5 / 2)]
      have hs : segmentCost a b = (distance a b).floor := by
        unfold segmentCost distance
        rw [abs_sub_comm b.x, abs_sub_comm b.y]
      have key : distance a b ≤ segmentCost a b + ((if a.x = b.x then (1 : Nat) else 0 : Nat) : Rat) / 2 := by
        rw [hs]
        by_cases hx : a.x = b.x
        · rw [if_pos hx]
          have hf := Rat.lt_floor_add_one (distance a b)
          push_cast at hf
          have h2 : 2 * distance a b = ((20 * |xa - xb| + 5 * |ya - yb| : Int) : Rat) := by rw [hd]; push_cast; ring
          have h3 : 2 * distance a b < ((2 * (distance a b).floor + 2 : Int) : Rat) := by push_cast; linarith
          rw [h2] at h3
          have h4 : (20 * |xa - xb| + 5 * |ya - yb| : Int) ≤ 2 * (distance a b).floor + 1 := by
            have : (20 * |xa - xb| + 5 * |ya - yb| : Int) < 2 * (distance a b).floor + 2 := by exact_mod_cast h3
            omega
          have h5 : 2 * distance a b ≤ 2 * ((distance a b).floor : Rat) + 1 := by rw [h2]; exact_mod_cast h4
          push_cast
          linarith
        · rw [if_neg hx]
          have hy := (ho 0 a b rfl rfl).resolve_left hx
          have hyy : ya = yb := by
            rw [ha', hb'] at hy
            have : (ya : Rat) = yb := by linarith
            exact_mod_cast this
          have hd' : distance a b = ((10 * |xa - xb| : Int) : Rat) := by rw [hd, hyy]; simp
          rw [hd', Rat.floor_intCast]
          simp
      push_cast at key ⊢
      linarith

/-- **C74.** The full claim, that no route is shorter than the drawn one, is false (`C74_refuted` in `Props/LongWay.lean`): the search
adds lengths that are rounded down.  What holds (more exactly in `C74_halves_partial`): the drawn route is longer than any other route between ends of the same tables or columns by at most half a
unit for each of its vertical segments. -/
theorem C74_true_length_partial {q : Queue} {QI : List Entry → Prop} (hq : q.Lawful QI) (m : Module)
    (hsize : (placeNodes m.intoMir).2.size.height ≤ 1000000000) (doc' : Document) (g' : RouteGraph)
    (h : drawEdgePath q (laidOut m.intoMir) .new = .ok (doc', g')) (i : Nat) (c : NodeRef × NodeRef)
    (hc : (connections [] m.entries)[i]? = some c) : ∃ e ps, doc'.edges[i]? = some e ∧ e.pathPoints = some ps ∧
      ∀ ps', IsRoute (lineNumbers (definitions m.entries)) (connections [] m.entries) c ps' →
        pathLength ps ≤ pathLength ps' + (verticals ps : Rat) / 2 := by
  obtain ⟨e, ps, he, hps, -, hmin, -⟩ := path_at hq m hsize doc' g' h i c hc
  refine ⟨e, ps, he, hps, fun ps' hr => ?_⟩
  have hd := drawable_intoMir m
  have hmem := List.mem_of_getElem? he
  have h1 := length_le_cost ps (fun p hp => drawn_grid hd hsize h hmem hps hp) fun k a b ha hb => by
    rcases C34_paths_orthogonal hq m.intoMir hd hsize doc' g' h e hmem ps hps k a b ha hb with h | h
    · exact .inl h.1
    · exact .inr h.2
  have h2 : (routeCost ps : Rat) ≤ routeCost ps' := by exact_mod_cast hmin ps' hr
  linarith [cost_le_length ps']

/-- The two routes of `C73_refuted`: 690 units long, of which the search counts 689, as the two segments that end at a half are
rounded down. -/
example : pathLength [⟨350, 135 / 2⟩, ⟨390, 135 / 2⟩, ⟨390, 125⟩, ⟨390, 240⟩, ⟨770, 240⟩, ⟨770, 595 / 2⟩, ⟨810, 595 / 2⟩] = 690 ∧
    routeCost [⟨350, 135 / 2⟩, ⟨390, 135 / 2⟩, ⟨390, 125⟩, ⟨390, 240⟩, ⟨770, 240⟩, ⟨770, 595 / 2⟩, ⟨810, 595 / 2⟩] = 689 ∧
    verticals [⟨350, 135 / 2⟩, ⟨390, 135 / 2⟩, ⟨390, 125⟩, ⟨390, 240⟩, ⟨770, 240⟩, ⟨770, 595 / 2⟩, ⟨810, 595 / 2⟩] = 3 ∧
    pathLength [⟨810, 595 / 2⟩, ⟨770, 595 / 2⟩, ⟨770, 240⟩, ⟨770, 125⟩, ⟨390, 125⟩, ⟨390, 135 / 2⟩, ⟨350, 135 / 2⟩] = 690 := by
  decide +kernel

/-- That module meets the hypotheses. -/
example : ∃ doc' g', drawEdgePath BinHeap.queue (laidOut (nineTables [.relation ⟨.entity c!"a", .entity c!"i"⟩]).intoMir) .new = .ok (doc', g') ∧
    (connections [] (nineTables [.relation ⟨.entity c!"a", .entity c!"i"⟩]).entries)[0]? = some (.table 0, .table 8) ∧
    (placeNodes (nineTables [.relation ⟨.entity c!"a", .entity c!"i"⟩]).intoMir).2.size.height ≤ 1000000000 := by
  have hsize : (placeNodes (nineTables [.relation ⟨.entity c!"a", .entity c!"i"⟩]).intoMir).2.size.height ≤ 1000000000 := by decide +kernel
  obtain ⟨d, g, h, -⟩ := drawn_connections BinHeap.lawful _ hsize
  exact ⟨d, g, h, by decide +kernel, hsize⟩

end Seiren
