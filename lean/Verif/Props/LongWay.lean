import Verif.Proofs.LongWay
import Verif.Props.GridLast
/-! # C74: a drawn route that is not the shortest one -/

namespace Seiren
open Spec

namespace Grid.Long

/-- The name of table number `k`. -/
def tableName (k : Nat) : Str := List.replicate (k + 1) 't'

/-- The name of column number `j`. -/
def columnName (j : Nat) : Str := List.replicate (j + 1) 'c'

theorem tableName_inj {k k' : Nat} : tableName k = tableName k' ↔ k = k' := by
  constructor
  · intro h
    have := congrArg List.length h
    simpa [tableName] using this
  · rintro rfl; rfl

theorem columnName_inj {k k' : Nat} : columnName k = columnName k' ↔ k = k' := by
  constructor
  · intro h
    have := congrArg List.length h
    simpa [columnName] using this
  · rintro rfl; rfl

/-- Table number `k`: five columns in the third column of tables, else three. -/
def definition (k : Nat) : EntityDefinition :=
  ⟨tableName k, (List.range (if k % 3 = 2 then 5 else 3)).map fun j => ⟨columnName j, .int, none⟩⟩

/-- The definitions of rows 0 to `N`. -/
def defs (N : Nat) : List EntityDefinition := (List.range (3 * (N + 1))).map definition

/-- The relations of row `r`. -/
def rowRelations (r : Nat) : List EntityRelation :=
  [⟨.entity (tableName (3 * r + 1)), .entity (tableName (3 * r + 2))⟩,
    ⟨.entity (tableName (3 * r + 1)), .field (tableName (3 * r + 2)) (columnName 0)⟩,
    ⟨.entity (tableName (3 * r + 1)), .field (tableName (3 * r + 2)) (columnName 1)⟩,
    ⟨.entity (tableName (3 * r + 1)), .field (tableName (3 * r + 2)) (columnName 2)⟩]

/-- A module with rows 0 to `N`. -/
def tall (N : Nat) : Module :=
  ⟨none, (defs N).map .definition ++ ((⟨.field (tableName 0) (columnName 0), .field (tableName (3 * N + 1)) (columnName 0)⟩ ::
    (List.range (N + 1)).flatMap rowRelations : List EntityRelation).map .relation)⟩

theorem filterMap_range {α : Type} (f : Nat → α) (k : Nat) : ∀ M, (List.range M).filterMap (fun i => if i = k then some (f i) else none) =
    if k < M then [f k] else [] := by
  intro M
  induction M with
  | zero => simp
  | succ M ih =>
    rw [List.range_succ, List.filterMap_append, ih]
    rcases Nat.lt_trichotomy k M with h | rfl | h
    · have h1 : ¬ M = k := by omega
      have h2 : k < M + 1 := by omega
      simp [h, h1, h2]
    · simp
    · have h1 : ¬ M = k := by omega
      have h2 : ¬ k < M := by omega
      have h3 : ¬ k < M + 1 := by omega
      simp [h1, h2, h3]

theorem flatMap_range {α : Type} (f : Nat → List α) (k : Nat) : ∀ M, (List.range M).flatMap (fun i => if i = k then f i else []) =
    if k < M then f k else [] := by
  intro M
  induction M with
  | zero => simp
  | succ M ih =>
    rw [List.range_succ, List.flatMap_append, ih]
    rcases Nat.lt_trichotomy k M with h | rfl | h
    · have h1 : ¬ M = k := by omega
      have h2 : k < M + 1 := by omega
      simp [h, h1, h2]
    · simp
    · have h1 : ¬ M = k := by omega
      have h2 : ¬ k < M := by omega
      have h3 : ¬ k < M + 1 := by omega
      simp [h1, h2, h3]

theorem zipIdx_range {α : Type} (f : Nat → α) (M : Nat) : ((List.range M).map f).zipIdx = (List.range M).map fun k => (f k, k) := by
  apply List.ext_getElem
  · simp
  · intro i h1 h2
    simp

theorem resolve_table {N k : Nat} (hk : k < 3 * (N + 1)) : resolve (defs N) (.entity (tableName k)) = some (.table k) := by
  have : candidates (defs N) (.entity (tableName k)) = [.table k] := by
    simp only [candidates, defs, zipIdx_range, List.filterMap_map]
    rw [← if_pos (c := k < 3 * (N + 1)) (t := [NodeRef.table k]) (e := []) hk, ← filterMap_range NodeRef.table]
    apply List.filterMap_congr
    intro i _
    simp only [Function.comp_apply, definition, tableName_inj]
  simp [resolve, this]

theorem resolve_column {N k j : Nat} (hk : k < 3 * (N + 1)) (hj : j < if k % 3 = 2 then 5 else 3) :
    resolve (defs N) (.field (tableName k) (columnName j)) = some (.column k j) := by
  have h1 : ∀ i, ((definition i).fields.zipIdx.filterMap fun (c, j') => if c.name = columnName j then some (NodeRef.column i j') else none) =
      if j < (if i % 3 = 2 then 5 else 3) then [.column i j] else [] := by
    intro i
    simp only [definition, zipIdx_range, List.filterMap_map]
    rw [← filterMap_range (NodeRef.column i)]
    apply List.filterMap_congr
    intro l _
    simp only [Function.comp_apply, columnName_inj]
  have : candidates (defs N) (.field (tableName k) (columnName j)) = [.column k j] := by
    simp only [candidates, defs, zipIdx_range, List.flatMap_map]
    rw [show [NodeRef.column k j] = (if j < (if k % 3 = 2 then 5 else 3) then [.column k j] else []) from (if_pos hj).symm, ← h1,
      ← if_pos (c := k < 3 * (N + 1)) (t := List.filterMap _ _) (e := []) hk,
      ← flatMap_range (fun i => (definition i).fields.zipIdx.filterMap fun (c, j') => if c.name = columnName j then some (NodeRef.column i j') else none)]
    apply List.flatMap_congr
    intro i _
    simp only [show (definition i).name = tableName i from rfl, tableName_inj]
  simp [resolve, this]

theorem connections_definitions (ds ds' : List EntityDefinition) (es : List ModuleEntry) :
    connections ds (ds'.map .definition ++ es) = connections (ds ++ ds') es := by
  induction ds' generalizing ds with
  | nil => simp
  | cons d ds' ih => simp only [List.map_cons, List.cons_append, connections, ih, List.append_assoc, List.nil_append]

/-- If all relations are resolved, these are the connections. -/
theorem connections_relations (ds : List EntityDefinition) {rs : List EntityRelation} {cs : List (NodeRef × NodeRef)}
    (h : List.Forall₂ (fun r c => resolve ds r.startPath = some c.1 ∧ resolve ds r.endPath = some c.2) rs cs) :
    connections ds (rs.map .relation) = cs := by
  induction h with
  | nil => rfl
  | cons h1 _ ih => simp only [List.map_cons, connections, h1.1, h1.2, ih]

theorem module_definitions (N : Nat) : definitions (tall N).entries = defs N := by
  have h1 : ∀ ds : List EntityDefinition, definitions (ds.map .definition) = ds := by
    intro ds
    induction ds with
    | nil => rfl
    | cons d ds ih => simp [definitions, ih]
  have h2 : ∀ rs : List EntityRelation, definitions (rs.map .relation) = [] := by
    intro rs
    induction rs with
    | nil => rfl
    | cons d rs ih => simp [definitions, ih]
  simp only [tall, definitions_append, h1, h2, List.append_nil]

theorem module_lines (N : Nat) : lineNumbers (definitions (tall N).entries) = lines N := by
  rw [module_definitions]
  simp only [lineNumbers, defs, lines, List.map_map]
  apply List.map_congr_left
  intro k _
  simp only [Function.comp_apply, definition, List.length_map, List.length_range]
  split <;> rfl

theorem module_connections (N : Nat) : connections [] (tall N).entries = conns N := by
  simp only [tall, connections_definitions, List.nil_append]
  apply connections_relations
  refine .cons ⟨resolve_column (by omega) (by simp), resolve_column (by omega) (by split <;> omega)⟩ ?_
  have h : ∀ R ≤ N + 1, List.Forall₂ (fun r c => resolve (defs N) r.startPath = some c.1 ∧ resolve (defs N) r.endPath = some c.2)
      ((List.range R).flatMap rowRelations) ((List.range R).flatMap rowConnections) := by
    intro R
    induction R with
    | zero => intro _; exact .nil
    | succ R ih =>
      intro hR
      rw [List.range_succ, List.flatMap_append, List.flatMap_append]
      refine List.rel_append (ih (by omega)) ?_
      have e : (3 * R + 2) % 3 = 2 := by omega
      simp only [List.flatMap_cons, List.flatMap_nil, List.append_nil, rowRelations, rowConnections]
      refine .cons ⟨resolve_table (by omega), resolve_table (by omega)⟩ (.cons ⟨resolve_table (by omega), resolve_column (by omega) ?_⟩
        (.cons ⟨resolve_table (by omega), resolve_column (by omega) ?_⟩ (.cons ⟨resolve_table (by omega), resolve_column (by omega) ?_⟩ .nil))) <;>
        rw [if_pos e] <;> omega
  exact h (N + 1) (le_refl _)

theorem module_height {q : Queue} {QI : List Entry → Prop} (hq : q.Lawful QI) {N : Nat} (hN : N ≤ 3000000) :
    (placeNodes (tall N).intoMir).2.size.height ≤ 1000000000 := by
  refine (picture_blocks hq (tall N) ?_ ?_).1
  · rw [module_definitions]
    simp [defs]
  · rw [module_lines]
    have e : ((lines N).length - 1) / 3 = N := by
      simp only [lines, List.length_map, List.length_range]
      omega
    have hN' : (N : Rat) ≤ 3000000 := by exact_mod_cast hN
    rw [picHeight, e, rowTop_eq (by omega), tallest_eq (le_refl _)]
    push_cast
    linarith

theorem module_drawn {q : Queue} {QI : List Entry → Prop} (hq : q.Lawful QI) {N : Nat} (hN : N ≤ 3000000) :
    ∃ el, drawModule q (tall N) = .ok el := by
  refine (C40_any_columns hq (tall N) ?_ (module_height hq hN)).mpr ?_
  · rw [module_connections, module_definitions]
    rintro e e' i - ⟨c, hc, he'⟩ - - - hl
    have key : ∀ k j, k < 3 * (N + 1) → (j + 1 < if k % 3 = 2 then 5 else 3) → ¬ LastColumn (defs N) (.column k j) := by
      rintro k j hk hj ⟨d, hd, hlen⟩
      simp only [defs, List.getElem?_map, List.getElem?_range hk, Option.map_some, Option.some.injEq] at hd
      subst hd
      simp only [definition, List.length_map, List.length_range] at hlen
      omega
    rcases mem_conns hc with rfl | ⟨r, hr, h1, h2⟩
    · rcases he' with rfl | rfl
      · exact key _ _ (by omega) (by simp) hl
      · exact key _ _ (by omega) (by split <;> omega) hl
    · rcases he' with rfl | rfl
      · rw [h1] at hl; exact hl
      · rcases h2 with h2 | ⟨j, hj, h2⟩ <;> rw [h2] at hl
        · exact hl
        · exact key _ _ (by omega) (by rw [if_pos (by omega)]; omega) hl
  · rw [module_connections]
    intro c hc hmeet
    rcases mem_conns hc with rfl | ⟨r, hr, h1, h2⟩
    · simp only [Meet] at hmeet
      omega
    · rw [h1] at hmeet
      rcases h2 with h2 | ⟨j, hj, h2⟩ <;> rw [h2] at hmeet <;> simp only [Meet] at hmeet <;> omega

end Grid.Long

/-- **C74, refutation.** A module that is drawn, and a route for its first relation that is shorter than the drawn one: 129 rows of
tables with 3, 3 and 5 columns, where the drawn route avoids the direct street as the lengths of the many short segments of the next
one are rounded down. -/
theorem C74_refuted {q : Queue} {QI : List Entry → Prop} (hq : q.Lawful QI) : ∃ (m : Module) (c : NodeRef × NodeRef) (el : Element)
    (doc' : Document) (g' : RouteGraph) (e : EdgeData) (ps ps' : List Point),
    drawModule q m = .ok el ∧ drawEdgePath q (laidOut m.intoMir) .new = .ok (doc', g') ∧
    (connections [] m.entries)[0]? = some c ∧ doc'.edges[0]? = some e ∧ e.pathPoints = some ps ∧
    IsRoute (lineNumbers (definitions m.entries)) (connections [] m.entries) c ps' ∧ pathLength ps' < pathLength ps := by
  have hsize := Grid.Long.module_height hq (N := 128) (by omega)
  obtain ⟨el, hel⟩ := Grid.Long.module_drawn hq (N := 128) (by omega)
  obtain ⟨doc', g', hd, -⟩ := drawn_connections hq _ hsize
  have hc : (connections [] (Grid.Long.tall 128).entries)[0]? = some (.column 0 0, .column (3 * 128 + 1) 0) := by
    rw [Grid.Long.module_connections]
    rfl
  obtain ⟨e, ps, he, hps, hs⟩ := path_at hq _ hsize doc' g' hd 0 _ hc
  rw [Grid.Long.module_lines, Grid.Long.module_connections] at hs
  obtain ⟨ps', hr, hlt⟩ := Grid.Long.not_shortest (le_refl _) hs
  refine ⟨Grid.Long.tall 128, _, el, doc', g', e, ps, ps', hel, hd, hc, he, hps, ?_, hlt⟩
  rw [Grid.Long.module_lines, Grid.Long.module_connections]
  exact hr

/-! ## Short routes -/

/-- The number of segments whose length is not a whole number. -/
def Spec.halves : List Point → Nat
  | a :: b :: ps => (if (distance a b).den = 1 then 0 else 1) + halves (b :: ps)
  | _ => 0

theorem segmentCost_floor (a b : Point) : segmentCost a b = (distance a b).floor := by
  unfold segmentCost distance
  rw [abs_sub_comm b.x, abs_sub_comm b.y]

/-- Exactly half a unit is lost for each of them. -/
theorem length_eq_cost (ps : List Point) (hg : ∀ p ∈ ps, OnGrid p) : pathLength ps = routeCost ps + (halves ps : Rat) / 2 := by
  induction ps with
  | nil => simp [routeCost, pathLength, halves]
  | cons a ps ih =>
    cases ps with
    | nil => simp [routeCost, pathLength, halves]
    | cons b ps =>
      have ih := ih fun p hp => hg p (by simp [hp])
      obtain ⟨⟨xa, ha⟩, ya, ha'⟩ := hg a (by simp)
      obtain ⟨⟨xb, hb⟩, yb, hb'⟩ := hg b (by simp)
      simp only [routeCost, pathLength, halves]
      have hd : 2 * distance a b = ((20 * |xa - xb| + 5 * |ya - yb| : Int) : Rat) := by
        unfold distance
        rw [ha, hb, ha', hb', ← mul_sub, ← mul_sub, abs_mul, abs_mul]
        push_cast
        rw [abs_of_pos (by norm_num : (0 : Rat) < 10), abs_of_pos (by norm_num : (0 : Rat) < 5 / 2)]
        ring
      have key : distance a b = segmentCost a b + ((if (distance a b).den = 1 then (0 : Nat) else 1 : Nat) : Rat) / 2 := by
        rw [segmentCost_floor]
        generalize distance a b = d at hd
        generalize 20 * |xa - xb| + 5 * |ya - yb| = n at hd
        have h1 := Rat.floor_le d
        have h2 := Rat.lt_floor_add_one d
        push_cast at h2
        split
        · rename_i hden
          have : d = (d.num : Rat) := ((Rat.den_eq_one_iff d).mp hden).symm
          rw [this, Rat.floor_intCast]
          simp
        · rename_i hden
          have h3 : 2 * d.floor ≤ n := by
            have : ((2 * d.floor : Int) : Rat) ≤ n := by push_cast; linarith
            exact_mod_cast this
          have h4 : n < 2 * d.floor + 2 := by
            have : (n : Rat) < ((2 * d.floor + 2 : Int) : Rat) := by push_cast; linarith
            exact_mod_cast this
          have h5 : n ≠ 2 * d.floor := by
            intro h
            apply hden
            have : d = ((d.floor : Int) : Rat) := by
              rw [h] at hd
              push_cast at hd
              linarith
            rw [this]
            exact Rat.den_intCast _
          have h6 : n = 2 * d.floor + 1 := by omega
          rw [h6] at hd
          push_cast at hd ⊢
          linarith
      push_cast at key ⊢
      linarith

/-- Lengths are multiples of 5/2. -/
theorem length_step (ps : List Point) (hg : ∀ p ∈ ps, OnGrid p) : ∃ i : Int, pathLength ps = 5 / 2 * (i : Rat) := by
  induction ps with
  | nil => exact ⟨0, by simp [pathLength]⟩
  | cons a ps ih =>
    cases ps with
    | nil => exact ⟨0, by simp [pathLength]⟩
    | cons b ps =>
      obtain ⟨i, hi⟩ := ih fun p hp => hg p (by simp [hp])
      obtain ⟨⟨xa, ha⟩, ya, ha'⟩ := hg a (by simp)
      obtain ⟨⟨xb, hb⟩, yb, hb'⟩ := hg b (by simp)
      refine ⟨4 * |xa - xb| + |ya - yb| + i, ?_⟩
      simp only [pathLength, hi]
      unfold distance
      rw [ha, hb, ha', hb', ← mul_sub, ← mul_sub, abs_mul, abs_mul]
      push_cast
      rw [abs_of_pos (by norm_num : (0 : Rat) < 10), abs_of_pos (by norm_num : (0 : Rat) < 5 / 2)]
      ring

/-- All points of routes are on the grid. -/
theorem Spec.IsRoute.onGrid {m : Module} {c : NodeRef × NodeRef} {ps : List Point}
    (h : IsRoute (lineNumbers (definitions m.entries)) (connections [] m.entries) c ps) : ∀ p ∈ ps, OnGrid p := by
  intro p hp
  obtain ⟨⟨w, hf⟩, -, -⟩ := h
  obtain ⟨i, hi⟩ := List.getElem?_of_mem hp
  obtain ⟨hil, hie⟩ := List.getElem?_eq_some_iff.mp hi
  obtain ⟨hlen, hg⟩ := List.forall₂_iff_get.mp hf.2
  obtain ⟨n, hn, hnl⟩ := hg i (hlen ▸ hil) hil
  simp only [List.get_eq_getElem] at hn hnl
  rw [hie] at hnl
  have hn := List.mem_of_getElem? hn
  rw [← hnl]
  refine ⟨?_, Grid.place_step (Grid.ok_module m) hn⟩
  obtain ⟨i, -, ⟨-, hi⟩ | ⟨-, ⟨-, hi⟩ | hi | ⟨-, hi⟩⟩⟩ := Grid.place_x (Grid.ok_module m) hn
  · exact ⟨1 + 38 * i, by rw [hi]; push_cast; ring⟩
  · exact ⟨5 + 38 * i, by rw [hi]; push_cast; ring⟩
  · exact ⟨20 + 38 * i, by rw [hi]; push_cast; ring⟩
  · exact ⟨35 + 38 * i, by rw [hi]; push_cast; ring⟩

/-- **C74.** The full claim, that no route is shorter than the drawn one, is false (`C74_refuted`).  What holds, exactly: for each
segment whose length is not a whole number half a unit is lost, so that a shorter route must have at least five such segments
fewer than the drawn one.  In particular the drawn route is a shortest one if it has at most four of them. -/
theorem C74_halves_partial {q : Queue} {QI : List Entry → Prop} (hq : q.Lawful QI) (m : Module)
    (hsize : (placeNodes m.intoMir).2.size.height ≤ 1000000000) (doc' : Document) (g' : RouteGraph)
    (h : drawEdgePath q (laidOut m.intoMir) .new = .ok (doc', g')) (i : Nat) (c : NodeRef × NodeRef)
    (hc : (connections [] m.entries)[i]? = some c) : ∃ e ps, doc'.edges[i]? = some e ∧ e.pathPoints = some ps ∧
      ∀ ps', IsRoute (lineNumbers (definitions m.entries)) (connections [] m.entries) c ps' →
        pathLength ps + (halves ps' : Rat) / 2 ≤ pathLength ps' + (halves ps : Rat) / 2 ∧
        (halves ps ≤ halves ps' + 4 → pathLength ps ≤ pathLength ps') := by
  obtain ⟨e, ps, he, hps, hr, hmin, -⟩ := path_at hq m hsize doc' g' h i c hc
  refine ⟨e, ps, he, hps, fun ps' hr' => ?_⟩
  have h1 := length_eq_cost ps hr.onGrid
  have h2 := length_eq_cost ps' hr'.onGrid
  have h3 : (routeCost ps : Rat) ≤ routeCost ps' := by exact_mod_cast hmin ps' hr'
  have h4 : pathLength ps + (halves ps' : Rat) / 2 ≤ pathLength ps' + (halves ps : Rat) / 2 := by linarith
  refine ⟨h4, fun hle => ?_⟩
  obtain ⟨a, ha⟩ := length_step ps hr.onGrid
  obtain ⟨b, hb⟩ := length_step ps' hr'.onGrid
  have h5 : (halves ps : Rat) ≤ halves ps' + 4 := by exact_mod_cast hle
  by_contra hlt
  push Not at hlt
  rw [ha, hb] at hlt
  have h6 : (b : Rat) < a := by linarith
  have h7 : b + 1 ≤ a := by exact_mod_cast h6
  have h8 : (b : Rat) + 1 ≤ a := by exact_mod_cast h7
  linarith

set_option maxRecDepth 1000000 in
/-- The route drawn in `C73_refuted` has two such segments, so it is a shortest one. -/
example : ∃ ps : List Point, pathsOf (drawEdgePath BinHeap.queue (laidOut (nineTables [.relation ⟨.entity c!"a", .entity c!"i"⟩,
      .relation ⟨.entity c!"i", .entity c!"a"⟩]).intoMir) .new) = some [some ps, some [⟨810, 595 / 2⟩, ⟨770, 595 / 2⟩, ⟨770, 240⟩,
        ⟨770, 125⟩, ⟨390, 125⟩, ⟨390, 135 / 2⟩, ⟨350, 135 / 2⟩]] ∧ halves ps = 2 :=
  ⟨[⟨350, 135 / 2⟩, ⟨390, 135 / 2⟩, ⟨390, 125⟩, ⟨390, 240⟩, ⟨770, 240⟩, ⟨770, 595 / 2⟩, ⟨810, 595 / 2⟩], by decide +kernel⟩

end Seiren
