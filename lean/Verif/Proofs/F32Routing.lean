import Verif.Proofs.F32Geometry
import Verif.Proofs.Walks
/-! # Rounded routing on a laid-out document agrees with exact routing -/

namespace Seiren
open Spec

theorem isF32_int (z : Int) (h : |z| ≤ 2 ^ 22) : IsF32 (z : Rat) := by
  have := isF32_half (2 * z) (by rw [abs_le] at h; rw [abs_lt]; omega)
  push_cast at this
  rwa [mul_div_cancel_left₀ _ (by norm_num : (2 : Rat) ≠ 0)] at this

theorem coord_int {q : Rat} (z : Int) (e : q = z) (h0 : 0 ≤ z) (h1 : z ≤ 2 ^ 22) : Coord q := by
  obtain ⟨n, rfl⟩ := Int.eq_ofNat_of_zero_le h0
  exact ⟨2 * n, by omega, by rw [e]; push_cast; ring⟩

/-- A scene whose tables end 50 above 2^22. -/
def Low (ns : List Nat) : Prop := ∀ (k n : Nat), ns[k]? = some n → bot ns k n + 50 ≤ 2 ^ 22

section
variable {rnd sq : Rat → Rat} (H : Rounding rnd sq)

include H in
theorem Rounding.int {q : Rat} (z : Int) (e : q = z) (h0 : -2 ^ 22 ≤ z) (h1 : z ≤ 2 ^ 22) : rnd q = q := by
  rw [e]; exact H.exact _ (isF32_int z (abs_le.mpr ⟨h0, h1⟩))

include H in
theorem table_insetR {ns : List Nat} (hlow : Low ns) {k n : Nat} (hk : ns[k]? = some n) (hn : 1 ≤ n) (m : Int) (h1 : -40 ≤ m)
    (h2 : m ≤ 1) :
    (tableRect ns k n).insetByR rnd m m = (tableRect ns k n).insetBy m m ∧ GridRect ((tableRect ns k n).insetBy m m) := by
  obtain ⟨b, hb⟩ := rowTop_nat ns (k / 3)
  have hb50 : 50 ≤ b := by
    have := rowTop_ge ns (k / 3)
    rw [hb] at this
    exact_mod_cast this
  have hbot : b + 35 * n + 50 ≤ 2 ^ 22 := by
    have := hlow k n hk
    unfold bot at this
    rw [hb] at this
    exact_mod_cast this
  obtain ⟨c, hc, hk3⟩ : ∃ c, k % 3 = c ∧ c < 3 := ⟨_, rfl, Nat.mod_lt _ (by norm_num)⟩
  have e1 : rnd (50 + 380 * (c : Rat) + m) = 50 + 380 * (c : Rat) + m :=
    H.int (50 + 380 * (c : Int) + m) (by push_cast; ring) (by omega) (by omega)
  have e2 : rnd ((b : Rat) + m) = b + m := H.int (b + m) (by push_cast; ring) (by omega) (by omega)
  have e3 : rnd ((m : Rat) * 2) = m * 2 := H.int (m * 2) (by push_cast; ring) (by omega) (by omega)
  have e4 : rnd ((300 : Rat) - m * 2) = 300 - m * 2 := H.int (300 - m * 2) (by push_cast; ring) (by omega) (by omega)
  have e5 : rnd (35 * (n : Rat) - m * 2) = 35 * n - m * 2 := H.int (35 * n - m * 2) (by push_cast; ring) (by omega) (by omega)
  have hm2 : (m : Rat) ≤ 1 := by exact_mod_cast h2
  have hn' : (1 : Rat) ≤ n := by exact_mod_cast hn
  have x1 : max ((300 : Rat) - m * 2) 0 = 300 - m * 2 := max_eq_left (by linarith)
  have x2 : max (35 * (n : Rat) - m * 2) 0 = 35 * n - m * 2 := max_eq_left (by linarith)
  constructor
  · simp only [Rect.insetByR, Rect.insetBy, tableRect, hb, hc, e1, e2, e3, e4, e5]
  · simp only [Rect.insetBy, tableRect, hb, hc, x1, x2]
    constructor
    · exact coord_int (50 + 380 * (c : Int) + m) (by simp only [Rect.minX]; push_cast; ring) (by omega) (by omega)
    · exact coord_int (350 + 380 * (c : Int) - m) (by simp only [Rect.maxX]; push_cast; ring) (by omega) (by omega)
    · exact coord_int (b + m) (by simp only [Rect.minY]; push_cast; ring) (by omega) (by omega)
    · exact coord_int (b + 35 * n - m) (by simp only [Rect.maxY]; push_cast; ring) (by omega) (by omega)
    · simp only [Rect.minX, Rect.maxX]; linarith
    · simp only [Rect.minY, Rect.maxY]; linarith

variable {ns : List Nat} {doc : Document}

include H in
theorem rects_insetR (h : Scene ns doc) (hlow : Low ns) (m : Rat) (z : Int) (hz : m = z) (h1 : -40 ≤ z) (h2 : z ≤ 1) :
    ((shapeRects doc).map fun r => r.insetByR rnd m m) = ((shapeRects doc).map fun r => r.insetBy m m) ∧
    ∀ r ∈ (shapeRects doc).map fun r => r.insetBy m m, GridRect r := by
  subst hz
  constructor
  · apply List.map_congr_left
    intro r hr
    obtain ⟨k, n, hk, rfl⟩ := (h.rects r).mp hr
    exact (table_insetR H hlow hk (h.pos n (List.mem_of_getElem? hk)) z h1 h2).1
  · intro r hr
    rw [List.mem_map] at hr
    obtain ⟨r0, hr0, rfl⟩ := hr
    obtain ⟨k, n, hk, rfl⟩ := (h.rects r0).mp hr0
    exact (table_insetR H hlow hk (h.pos n (List.mem_of_getElem? hk)) z h1 h2).2

include H in
theorem marginR_eq : marginR rnd = SHAPE_JUNCTION_MARGIN := by
  unfold marginR SHAPE_JUNCTION_MARGIN
  exact H.int 40 (by unfold RECORD_SPACE; norm_num) (by norm_num) (by norm_num)

theorem margin_int : -SHAPE_JUNCTION_MARGIN = ((-40 : Int) : Rat) := by norm_num [SHAPE_JUNCTION_MARGIN, RECORD_SPACE]

include H in
theorem junctionsAroundShapesR_eq (h : Scene ns doc) (hlow : Low ns) :
    junctionsAroundShapesR rnd doc = junctionsAroundShapes doc := by
  unfold junctionsAroundShapesR junctionsAroundShapes
  apply List.flatMap_congr
  intro r hr
  obtain ⟨k, n, hk, rfl⟩ := (h.rects r).mp hr
  obtain ⟨e1, e2⟩ := table_insetR H hlow hk (h.pos n (List.mem_of_getElem? hk)) (-40) (by norm_num) (by norm_num)
  rw [marginR_eq H, margin_int, e1]
  simp only [e2.maxXR H, e2.maxYR H]

/-- The location of a port is on the grid. -/
theorem Scene.port_coord (h : Scene ns doc) (hlow : Low ns) {p : TerminalPort} (hp : p ∈ portsOfEdges doc) :
    Coord p.location.x ∧ Coord p.location.y := by
  obtain ⟨k, n, hk, hpa⟩ := h.ports p hp
  obtain ⟨z, hz⟩ := h.grid p hp
  obtain ⟨-, -, t1, t2⟩ := h.port_on_table hk hpa
  have hl := hlow k n hk
  have ht := rowTop_ge ns (k / 3)
  obtain ⟨c, hc, hk3⟩ : ∃ c, k % 3 = c ∧ c < 3 := ⟨_, rfl, Nat.mod_lt _ (by norm_num)⟩
  constructor
  · cases ho : p.orientation <;> rw [ho] at hpa <;> simp only [PortAt, col, hc] at hpa
    · exact coord_int (200 + 380 * (c : Int)) (by rw [hpa.1]; push_cast; ring) (by omega) (by omega)
    · exact coord_int (200 + 380 * (c : Int)) (by rw [hpa.1]; push_cast; ring) (by omega) (by omega)
    · exact coord_int (50 + 380 * (c : Int)) (by rw [hpa.1]; push_cast; ring) (by omega) (by omega)
    · exact coord_int (350 + 380 * (c : Int)) (by rw [hpa.1]; push_cast; ring) (by omega) (by omega)
  · have h0 : (0 : Rat) ≤ z := by linarith
    have h1 : 5 * (z : Rat) ≤ 2 ^ 23 := by linarith
    have h0' : 0 ≤ z := by exact_mod_cast h0
    have h1' : 5 * z ≤ 2 ^ 23 := by exact_mod_cast h1
    obtain ⟨a, rfl⟩ := Int.eq_ofNat_of_zero_le h0'
    exact ⟨5 * a, by omega, by rw [hz]; push_cast; ring⟩

/-- The corners are on the grid. -/
theorem Scene.corner_coord (h : Scene ns doc) (hlow : Low ns) {j : Point} (hj : j ∈ junctionsAroundShapes doc) :
    Coord j.x ∧ Coord j.y := by
  obtain ⟨k, n, hk, hx, hy⟩ := (h.corner_iff j).mp hj
  obtain ⟨b, hb⟩ := rowTop_nat ns (k / 3)
  have hb50 : 50 ≤ b := by
    have := rowTop_ge ns (k / 3)
    rw [hb] at this
    exact_mod_cast this
  have hbot : b + 35 * n + 50 ≤ 2 ^ 22 := by
    have := hlow k n hk
    unfold bot at this
    rw [hb] at this
    exact_mod_cast this
  obtain ⟨c, hc, hk3⟩ : ∃ c, k % 3 = c ∧ c < 3 := ⟨_, rfl, Nat.mod_lt _ (by norm_num)⟩
  constructor
  · rw [col, hc] at hx
    rcases hx with hx | hx
    · exact coord_int (10 + 380 * (c : Int)) (by rw [hx]; push_cast; ring) (by omega) (by omega)
    · exact coord_int (390 + 380 * (c : Int)) (by rw [hx]; push_cast; ring) (by omega) (by omega)
  · rw [bot, hb] at hy
    rcases hy with hy | hy
    · exact coord_int (b - 40) (by rw [hy]; push_cast; ring) (by omega) (by omega)
    · exact coord_int (b + 35 * n + 40) (by rw [hy]; push_cast; ring) (by omega) (by omega)

/-- The crossing junctions are on the grid. -/
theorem Scene.crossing_coord (h : Scene ns doc) (hlow : Low ns) {p : TerminalPort} (hp : p ∈ portsOfEdges doc) {j : Point}
    (hj : j ∈ junctionsFromTerminalPort doc p (junctionsAroundShapes doc)) : Coord j.x ∧ Coord j.y := by
  obtain ⟨c, hc, hs⟩ := crossing_shape hj
  obtain ⟨c1, c2⟩ := h.corner_coord hlow hc
  obtain ⟨p1, p2⟩ := h.port_coord hlow hp
  cases ho : p.orientation <;> rw [ho] at hs <;> simp only at hs <;> subst hs
  · exact ⟨p1, c2⟩
  · exact ⟨p1, c2⟩
  · exact ⟨c1, p2⟩
  · exact ⟨c1, p2⟩

theorem Scene.junction_coord (h : Scene ns doc) (hlow : Low ns) {j : Point} (hj : j ∈ junctionsOf doc) : Coord j.x ∧ Coord j.y := by
  obtain ⟨hj, -⟩ := (h.mem_junctions j).mp hj
  rcases hj with hj | ⟨p, hp, hj⟩
  · exact h.corner_coord hlow hj
  · exact h.crossing_coord hlow hp hj

include H in
theorem junctionsFromTerminalPortR_eq (h : Scene ns doc) (hlow : Low ns) {p : TerminalPort} (hp : p ∈ portsOfEdges doc)
    (others : List Point) : junctionsFromTerminalPortR rnd doc p others = junctionsFromTerminalPort doc p others := by
  obtain ⟨p1, p2⟩ := h.port_coord hlow hp
  obtain ⟨e, hg⟩ := rects_insetR H h hlow (-SHAPE_JUNCTION_MARGIN) (-40) margin_int (by norm_num) (by norm_num)
  unfold junctionsFromTerminalPortR junctionsFromTerminalPort
  rw [marginR_eq H]
  simp only
  rw [e]
  cases p.orientation <;> simp only
  · -- up
    rw [List.foldl_ext _ _ _ fun acc r hr => ?_]
    by_cases hb : r.minY > p.location.y
    · rw [intersectsLineR_up H (hg r hr) p1 p2 hb]
    · rw [if_neg (fun hh => hb hh.1), if_neg (fun hh => hb hh.1)]
  · -- down
    rw [List.foldl_ext _ _ _ fun acc r hr => ?_]
    rw [(hg r hr).maxYR H]
    by_cases hb : r.maxY < p.location.y
    · rw [intersectsLineR_down H (hg r hr) p1 p2 hb]
    · rw [if_neg (fun hh => hb hh.1), if_neg (fun hh => hb hh.1)]
  · -- left
    rw [List.foldl_ext _ _ _ fun acc r hr => ?_]
    rw [(hg r hr).maxXR H]
    by_cases hb : r.maxX < p.location.x
    · rw [intersectsLineR_left H (hg r hr) p1 p2 hb]
    · rw [if_neg (fun hh => hb hh.1), if_neg (fun hh => hb hh.1)]
  · -- right
    rw [List.foldl_ext _ _ _ fun acc r hr => ?_]
    by_cases hb : r.minX > p.location.x
    · rw [intersectsLineR_right H (hg r hr) p1 p2 hb]
    · rw [if_neg (fun hh => hb hh.1), if_neg (fun hh => hb hh.1)]

include H in
theorem crossingJunctionsR_eq (h : Scene ns doc) (hlow : Low ns) (others : List Point) :
    crossingJunctionsR rnd doc others = crossingJunctions doc others := by
  unfold crossingJunctionsR crossingJunctions
  apply List.flatMap_congr
  intro e he
  apply List.flatMap_congr
  intro p hp
  exact junctionsFromTerminalPortR_eq H h hlow (List.mem_flatMap.mpr ⟨e, he, hp⟩) others

include H in
theorem removeOverlappedR_eq (h : Scene ns doc) (hlow : Low ns) (js : List Point) :
    removeOverlappedR rnd doc js = removeOverlapped doc js := by
  unfold removeOverlappedR removeOverlapped
  have e39 : rnd (marginR rnd - 1) = SHAPE_JUNCTION_MARGIN - 1 := by
    rw [marginR_eq H]
    exact H.int 39 (by norm_num [SHAPE_JUNCTION_MARGIN, RECORD_SPACE]) (by norm_num) (by norm_num)
  rw [e39]
  obtain ⟨e, hg⟩ := rects_insetR H h hlow (-(SHAPE_JUNCTION_MARGIN - 1)) (-39)
    (by norm_num [SHAPE_JUNCTION_MARGIN, RECORD_SPACE]) (by norm_num) (by norm_num)
  simp only
  rw [e]
  apply List.filter_congr
  intro j _
  congr 1
  rw [Bool.eq_iff_iff, List.any_eq_true, List.any_eq_true]
  constructor
  · rintro ⟨r, hr, hc⟩
    refine ⟨r, hr, ?_⟩
    simpa only [Rect.containsPointR, Rect.containsPoint, (hg r hr).maxXR H, (hg r hr).maxYR H] using hc
  · rintro ⟨r, hr, hc⟩
    refine ⟨r, hr, ?_⟩
    simpa only [Rect.containsPointR, Rect.containsPoint, (hg r hr).maxXR H, (hg r hr).maxYR H] using hc

/-! ## The graph -/

/-- All nodes of the graph are on the grid. -/
def GridGraph (g : RouteGraph) : Prop := ∀ n ∈ g.nodes, Coord n.location.x ∧ Coord n.location.y

theorem addNodeAt_grid {g g' : RouteGraph} {loc : Point} {o : Option Orientation} {i : RouteNodeId}
    (hl : Coord loc.x ∧ Coord loc.y) (hg : GridGraph g) (h : g.addNodeAt loc o = .ok (g', i)) : GridGraph g' := by
  unfold RouteGraph.addNodeAt at h
  split at h
  · split at h
    · cases h
    · cases h; exact hg
  · cases h
    intro n hn
    simp only [List.mem_append, List.mem_singleton] at hn
    rcases hn with hn | rfl
    · exact hg n hn
    · exact hl

theorem addJunctions_grid (js : List Point) (hj : ∀ j ∈ js, Coord j.x ∧ Coord j.y) {g g' : RouteGraph} (hg : GridGraph g)
    (h : addJunctions g js = .ok g') : GridGraph g' := by
  induction js generalizing g with
  | nil => cases h; exact hg
  | cons j js ih =>
    rw [addJunctions, RouteGraph.addNode] at h
    split at h
    · cases h
    · rename_i g1 i hadd
      exact ih (fun j' h' => hj j' (by simp [h'])) (addNodeAt_grid (hj j (by simp)) hg hadd) h

theorem addTerminalPorts_grid (ps : List TerminalPort) (hp : ∀ p ∈ ps, Coord p.location.x ∧ Coord p.location.y)
    {g g' : RouteGraph} (hg : GridGraph g) (h : addTerminalPorts g ps = .ok g') : GridGraph g' := by
  induction ps generalizing g with
  | nil => cases h; exact hg
  | cons p ps ih =>
    rw [addTerminalPorts, RouteGraph.addTerminalPort] at h
    cases hadd : g.addNodeAt p.location (some p.orientation) with
    | error e => rw [hadd] at h; cases h
    | ok r =>
      obtain ⟨g1, i⟩ := r
      rw [hadd] at h
      simp only at h
      refine ih (fun p' h' => hp p' (by simp [h'])) ?_ h
      have := addNodeAt_grid (hp p (by simp)) hg hadd
      exact this

include H in
theorem nearestStepR_eq {rects : List Rect} (hr : ∀ r ∈ rects, GridRect r) {n : RouteNodeData}
    (hn : Coord n.location.x ∧ Coord n.location.y) (acc : Nearest) {b : RouteNodeId × RouteNodeData}
    (hb : Coord b.2.location.x ∧ Coord b.2.location.y) :
    nearestStepR rnd rects n acc b = nearestStep rects n acc b := by
  have hc : (n.location.x = b.2.location.x ∧ n.location.y ≠ b.2.location.y) ∨
      (n.location.y = b.2.location.y ∧ n.location.x ≠ b.2.location.x) →
      rects.any (fun r => r.intersectsLineR rnd n.location b.2.location) =
        rects.any (fun r => r.intersectsLine n.location b.2.location) := by
    intro hax
    rw [Bool.eq_iff_iff, List.any_eq_true, List.any_eq_true]
    constructor
    · rintro ⟨r, h1, h2⟩
      exact ⟨r, h1, by rwa [intersectsLineR_grid H (hr r h1) hn.1 hn.2 hb.1 hb.2 hax] at h2⟩
    · rintro ⟨r, h1, h2⟩
      exact ⟨r, h1, by rwa [intersectsLineR_grid H (hr r h1) hn.1 hn.2 hb.1 hb.2 hax]⟩
  unfold nearestStepR nearestStep
  simp only
  by_cases c1 : b.2.location.x = n.location.x ∧ b.2.location.y < n.location.y
  · rw [if_pos c1, if_pos c1, hc (Or.inl ⟨c1.1.symm, ne_of_gt c1.2⟩)]
  rw [if_neg c1, if_neg c1]
  by_cases c2 : b.2.location.x = n.location.x ∧ b.2.location.y > n.location.y
  · rw [if_pos c2, if_pos c2, hc (Or.inl ⟨c2.1.symm, ne_of_lt c2.2⟩)]
  rw [if_neg c2, if_neg c2]
  by_cases c3 : b.2.location.y = n.location.y ∧ b.2.location.x < n.location.x
  · rw [if_pos c3, if_pos c3, hc (Or.inr ⟨c3.1.symm, ne_of_gt c3.2⟩)]
  rw [if_neg c3, if_neg c3]
  by_cases c4 : b.2.location.y = n.location.y ∧ b.2.location.x > n.location.x
  · rw [if_pos c4, if_pos c4, hc (Or.inr ⟨c4.1.symm, ne_of_lt c4.2⟩)]
  rw [if_neg c4, if_neg c4]

include H in
theorem connectNearestR_eq (h : Scene ns doc) (hlow : Low ns) {g : RouteGraph} (hg : GridGraph g) :
    connectNearestR rnd doc g = connectNearest doc g := by
  obtain ⟨e, hr⟩ := rects_insetR H h hlow 1 1 (by norm_num) (by norm_num) (by norm_num)
  have hidx : ∀ p ∈ g.indexed, Coord p.2.location.x ∧ Coord p.2.location.y := by
    intro p hp
    unfold RouteGraph.indexed at hp
    rw [List.mem_map] at hp
    obtain ⟨q, hq, rfl⟩ := hp
    exact hg _ (List.mem_of_getElem? (List.mem_zipIdx_iff_getElem?.mp hq))
  unfold connectNearestR connectNearest collisionRectsR
  simp only
  rw [e]
  congr 1
  apply List.flatMap_congr
  intro p hp
  congr 1
  unfold nearestOfR nearestOf
  apply List.foldl_ext
  intro acc b hb
  exact nearestStepR_eq H hr (hidx p hp) acc (hidx b hb)

include H in
theorem buildRouteGraphR_eq (h : Scene ns doc) (hlow : Low ns) : buildRouteGraphR rnd doc .new = buildRouteGraph doc .new := by
  unfold buildRouteGraphR buildRouteGraph
  simp only [junctionsAroundShapesR_eq H h hlow, crossingJunctionsR_eq H h hlow, removeOverlappedR_eq H h hlow]
  cases h1 : addJunctions .new (removeOverlapped doc (junctionsAroundShapes doc ++ crossingJunctions doc (junctionsAroundShapes doc))) with
  | error e => rfl
  | ok g1 =>
    simp only
    cases h2 : addTerminalPorts g1 (doc.edges.flatMap (edgePorts doc)) with
    | error e => rfl
    | ok g2 =>
      have g1g := addJunctions_grid _ (fun j hj => h.junction_coord hlow hj) (g := .new) (by intro n hn; cases hn) h1
      have g2g := addTerminalPorts_grid _ (fun p hp => h.port_coord hlow hp) g1g h2
      simp only [connectNearestR_eq H h hlow g2g]

/-! ## Costs and search -/

include H in
/-- The computed cost of a segment of the grid parallel to an axis. -/
theorem distanceR_axis {a b : Point} (hax : Coord a.x) (hay : Coord a.y) (hbx : Coord b.x) (hby : Coord b.y)
    (hab : a.x = b.x ∨ a.y = b.y) : a.distanceU32R rnd sq b = a.distanceU32 b := by
  have main : ∀ n : Int, |n| ≤ 2 ^ 23 → |(n : Rat)| / 2 = |b.x - a.x| + |b.y - a.y| →
      rnd (rnd ((n : Rat) / 2 * ((n : Rat) / 2)) + 0) = rnd ((n : Rat) / 2 * ((n : Rat) / 2)) := by
    intro n hn _
    rw [add_zero]
    apply H.idem
    have h1 : |(n : Rat)| ≤ 2 ^ 23 := by
      have : ((|n| : Int) : Rat) ≤ ((2 ^ 23 : Int) : Rat) := by exact_mod_cast hn
      rw [Int.cast_abs] at this
      norm_num at this ⊢
      exact this
    apply small_abs
    rw [abs_mul, abs_div, abs_two]
    have h0 := abs_nonneg (n : Rat)
    nlinarith
  have hlen : |b.x - a.x| + |b.y - a.y| ≤ 4294967295 := by
    obtain ⟨x1, x2⟩ := hax.bounds
    obtain ⟨x3, x4⟩ := hay.bounds
    obtain ⟨x5, x6⟩ := hbx.bounds
    obtain ⟨x7, x8⟩ := hby.bounds
    have y1 : |b.x - a.x| ≤ 2 ^ 22 := abs_le.mpr ⟨by linarith, by linarith⟩
    have y2 : |b.y - a.y| ≤ 2 ^ 22 := abs_le.mpr ⟨by linarith, by linarith⟩
    linarith
  have hfin : ∀ n : Int, |n| ≤ 2 ^ 23 → |(n : Rat)| / 2 = |b.x - a.x| + |b.y - a.y| →
      min (sq (rnd (rnd (rnd ((n : Rat) / 2 * ((n : Rat) / 2)) + 0)))).floor.toNat 4294967295 = a.distanceU32 b := by
    intro n hn hl
    have hd := distance_axis a b hab hlen
    rw [main n hn hl, H.idem, H.sqrt n hn, hl]
    · unfold segmentCost at hd
      have hf0 : 0 ≤ (|b.x - a.x| + |b.y - a.y|).floor := by
        rw [Rat.le_floor_iff]; push_cast; positivity
      have : (|b.x - a.x| + |b.y - a.y|).floor.toNat = a.distanceU32 b := by omega
      rw [this]
      apply Nat.min_eq_left
      unfold Point.distanceU32
      exact Nat.min_le_right _ _
    · have h1 : |(n : Rat)| ≤ 2 ^ 23 := by
        have : ((|n| : Int) : Rat) ≤ ((2 ^ 23 : Int) : Rat) := by exact_mod_cast hn
        rw [Int.cast_abs] at this
        norm_num at this ⊢
        exact this
      apply small_abs
      rw [abs_mul, abs_div, abs_two]
      have h0 := abs_nonneg (n : Rat)
      nlinarith
  have hid : ∀ n : Int, |n| ≤ 2 ^ 23 → |(n : Rat)| / 2 = |b.x - a.x| + |b.y - a.y| →
      rnd (rnd (rnd ((n : Rat) / 2 * ((n : Rat) / 2)) + 0)) = rnd (rnd ((n : Rat) / 2 * ((n : Rat) / 2)) + 0) := by
    intro n hn hl
    rw [main n hn hl]
    have := main n hn hl
    rwa [add_zero] at this
  unfold Point.distanceU32R
  simp only
  rw [H.exact _ (hax.sub_f32 hbx), H.exact _ (hay.sub_f32 hby)]
  rcases hab with he | he
  · obtain ⟨n, hn, e⟩ := hay.sub hby
    have hl : |(n : Rat)| / 2 = |b.x - a.x| + |b.y - a.y| := by
      rw [he, sub_self, abs_zero, zero_add, abs_sub_comm, e, abs_div, abs_two]
    rw [he, sub_self, mul_zero, H.zero, e, zero_add, ← hfin n hn hl, hid n hn hl, add_zero]
  · obtain ⟨n, hn, e⟩ := hax.sub hbx
    have hl : |(n : Rat)| / 2 = |b.x - a.x| + |b.y - a.y| := by
      rw [he, sub_self, abs_zero, add_zero, abs_sub_comm, e, abs_div, abs_two]
    rw [he, sub_self, mul_zero, H.zero, e, ← hfin n hn hl, hid n hn hl]

theorem astarRelax_congr (q : Queue) {c1 c2 : RouteNodeId → RouteNodeId → Nat} (node s : Nat) (l : List RouteNodeId)
    (h : ∀ b ∈ l, c1 node b = c2 node b) (st : AstarState) : astarRelax q c1 node s l st = astarRelax q c2 node s l st := by
  induction l generalizing st with
  | nil => rfl
  | cons b l ih =>
    have ih := ih (fun b' hb' => h b' (by simp [hb']))
    rw [astarRelax, astarRelax, h b (by simp)]
    simp only [ih]

/-- The search depends only on the costs of the edges of the graph. -/
theorem astar_congr (q : Queue) (g : RouteGraph) {c1 c2 : RouteNodeId → RouteNodeId → Nat}
    (h : ∀ a b, Joined g a b → c1 a b = c2 a b) (start goal : RouteNodeId) : astar q g c1 start goal = astar q g c2 start goal := by
  have key : ∀ (fuel : Nat) (st : AstarState), astarLoop q g c1 goal fuel st = astarLoop q g c2 goal fuel st := by
    intro fuel
    induction fuel with
    | zero => intro st; rfl
    | succ fuel ih =>
      intro st
      rw [astarLoop, astarLoop]
      have : ∀ node s st, astarRelax q c1 node s (g.neighbors node) st = astarRelax q c2 node s (g.neighbors node) st :=
        fun node s st => astarRelax_congr q node s _ (fun b hb => h node b ((mem_neighbors g node b).mp hb)) st
      simp only [this, ih]
  exact key _ _

theorem bestPathR_eq (q : Queue) (g : RouteGraph) (h : ∀ a b, Joined g a b → edgeCostR rnd sq g a b = edgeCost g a b)
    (prs : List (TerminalPort × TerminalPort)) (c : Nat) (w : Option (List RouteNodeId)) :
    bestPathR rnd sq q g prs c w = bestPath q g prs c w := by
  have hs : ∀ s t, computeShortestPathR rnd sq q g s t = computeShortestPath q g s t := by
    intro s t
    unfold computeShortestPathR computeShortestPath
    rw [astar_congr q g h]
    rfl
  induction prs generalizing c w with
  | nil => rfl
  | cons pr prs ih =>
    obtain ⟨s, t⟩ := pr
    rw [bestPathR, bestPath]
    simp only [ih, hs]
    rfl

theorem collectPathsR_eq (q : Queue) (g : RouteGraph) (h : ∀ a b, Joined g a b → edgeCostR rnd sq g a b = edgeCost g a b)
    (es : List EdgeData) : collectPathsR rnd sq q doc g es = collectPaths q doc g es := by
  have hf : ∀ e, findShortestEdgesPathR rnd sq q doc g e = findShortestEdgesPath q doc g e := by
    intro e
    unfold findShortestEdgesPathR findShortestEdgesPath
    simp only [bestPathR_eq q g h]
    rfl
  induction es with
  | nil => rfl
  | cons e es ih =>
    rw [collectPathsR, collectPaths]
    simp only [hf, ih]
    rfl

theorem SceneGraph.grid (h : Scene ns doc) (hlow : Low ns) {g : RouteGraph} (hg : SceneGraph doc g) : GridGraph g := by
  intro n hn
  rcases (hg.nodes n).mp hn with ⟨j, hj, rfl⟩ | ⟨p, hp, rfl⟩
  · exact h.junction_coord hlow hj
  · exact h.port_coord hlow hp

include H in
theorem drawEdgePathR_eq (q : Queue) (h : Scene ns doc) (hlow : Low ns) :
    drawEdgePathR rnd sq q doc .new = drawEdgePath q doc .new := by
  obtain ⟨g, hg⟩ := h.graph
  have hgrid := SceneGraph.grid h hlow hg
  unfold drawEdgePathR drawEdgePath
  rw [buildRouteGraphR_eq H h hlow, hg.built]
  simp only
  rw [collectPathsR_eq]
  · rfl
  · intro a b hj
    obtain ⟨n, m, d, hn, hm, hl⟩ := hg.joined_linked hj
    have hn' : (connectNearest doc g).getNode a = some n := by rw [RouteGraph.getNode, (connect_nodes doc g).1]; exact hn
    have hm' : (connectNearest doc g).getNode b = some m := by rw [RouteGraph.getNode, (connect_nodes doc g).1]; exact hm
    have hcn := hgrid n (List.mem_of_getElem? hn)
    have hcm := hgrid m (List.mem_of_getElem? hm)
    simp only [edgeCostR, edgeCost, hn', hm']
    exact distanceR_axis H hcn.1 hcn.2 hcm.1 hcm.2 hl.1.axis

end

end Seiren
