import Verif.Proofs.IeeeDebug
import Verif.Props.DebugText
import Verif.Props.IeeeDraw
/-! # C101: the debug drawing on the machine -/

namespace Seiren
open Spec

/-- **C101.** On all values of `f32`, the debug drawing of a module with at most 2^40 lines is the one computed with rounded rational
numbers: neither `NaN` nor an infinity nor a negative zero arises in it, and it does not matter which zero `max` and `min` return. -/
theorem C101_values (tie : Fl → Fl → Bool) (w : Nat → Nat) (q : Queue) (m : Module) (h : (lineNumbers (definitions m.entries)).sum ≤ 2 ^ 40) :
    drawModuleDebugFl tie w q m = (drawModuleDebugM roundF32 sqrtF32 w q m).map shown := by
  obtain ⟨hsk, hb⟩ := place_module m h
  obtain ⟨e1, n1, -⟩ := placeNodes_fl tie (docNum_intoMir m) hsk hb
  obtain ⟨e2, n2⟩ := placeTerminalPorts_fl _ n1
  have h3 := drawEdgePath_fl w tie q n2 (g := RouteGraph.new) (by nofun)
  have h4 := fun d' g' => drawEdgePathM_graph (d' := d') (g' := g') w q n2 (g := RouteGraph.new) (by nofun)
  unfold drawModuleDebugFl drawModuleDebugM
  rw [ofMir_eq, e1]
  simp only
  rw [e2, show FlRouteGraph.new = RouteGraph.new.fl from rfl]
  generalize drawEdgePathM w (buildRouteGraphR roundF32) (edgeCostR roundF32 sqrtF32) q (placeTerminalPortsR roundF32 (placeNodesR roundF32 m.intoMir).1) RouteGraph.new = r1 at h3 h4 ⊢
  generalize drawEdgePathFl w tie q (placeTerminalPortsR roundF32 (placeNodesR roundF32 m.intoMir).1).fl RouteGraph.new.fl = r2 at h3 ⊢
  cases r1 with
  | error p => rw [show r2 = .error p from h3]; rfl
  | ok r =>
    obtain ⟨rfl, hd, he⟩ := h3
    simp only
    exact renderWith_fl (some _) hd he (h4 r.1 r.2 rfl)

/-! ## Exactness -/

section
variable {rnd sq : Rat → Rat} (H : Rounding rnd sq)

include H in
theorem arrowPointsR_eq (a : Point) {b : Point} (hx : Coord b.x) (hy : Coord b.y) : arrowPointsR rnd a b = arrowPoints a b := by
  obtain ⟨n, hn, ex⟩ := hx
  obtain ⟨k, hk, ey⟩ := hy
  have hw : rnd (5 / 2) = 5 / 2 := H.half 5 (by norm_num) (by norm_num) (by norm_num)
  have e1 : rnd (b.x - 5 / 2) = b.x - 5 / 2 := H.half (n - 5) (by rw [ex]; push_cast; ring) (by omega) (by omega)
  have e2 : rnd (b.x + 5 / 2) = b.x + 5 / 2 := H.half (n + 5) (by rw [ex]; push_cast; ring) (by omega) (by omega)
  have e3 : rnd (b.y - 5 / 2) = b.y - 5 / 2 := H.half (k - 5) (by rw [ey]; push_cast; ring) (by omega) (by omega)
  have e4 : rnd (b.y + 5 / 2) = b.y + 5 / 2 := H.half (k + 5) (by rw [ey]; push_cast; ring) (by omega) (by omega)
  have c1 : rnd (b.x - circleRadius) = b.x - circleRadius := H.half (n - 8) (by rw [ex, circleRadius]; push_cast; ring) (by omega) (by omega)
  have c2 : rnd (b.x + circleRadius) = b.x + circleRadius := H.half (n + 8) (by rw [ex, circleRadius]; push_cast; ring) (by omega) (by omega)
  have c3 : rnd (b.y - circleRadius) = b.y - circleRadius := H.half (k - 8) (by rw [ey, circleRadius]; push_cast; ring) (by omega) (by omega)
  have c4 : rnd (b.y + circleRadius) = b.y + circleRadius := H.half (k + 8) (by rw [ey, circleRadius]; push_cast; ring) (by omega) (by omega)
  have s1 : rnd (b.x - 7) = b.x - 7 := H.half (n - 14) (by rw [ex]; push_cast; ring) (by omega) (by omega)
  have s2 : rnd (b.x + 7) = b.x + 7 := H.half (n + 14) (by rw [ex]; push_cast; ring) (by omega) (by omega)
  have s3 : rnd (b.y - 7) = b.y - 7 := H.half (k - 14) (by rw [ey]; push_cast; ring) (by omega) (by omega)
  have s4 : rnd (b.y + 7) = b.y + 7 := H.half (k + 14) (by rw [ey]; push_cast; ring) (by omega) (by omega)
  have t1 : rnd (b.x - 7 - circleRadius) = b.x - 7 - circleRadius := H.half (n - 22) (by rw [ex, circleRadius]; push_cast; ring) (by omega) (by omega)
  have t2 : rnd (b.x + 7 + circleRadius) = b.x + 7 + circleRadius := H.half (n + 22) (by rw [ex, circleRadius]; push_cast; ring) (by omega) (by omega)
  have t3 : rnd (b.y - 7 - circleRadius) = b.y - 7 - circleRadius := H.half (k - 22) (by rw [ey, circleRadius]; push_cast; ring) (by omega) (by omega)
  have t4 : rnd (b.y + 7 + circleRadius) = b.y + 7 + circleRadius := H.half (k + 22) (by rw [ey, circleRadius]; push_cast; ring) (by omega) (by omega)
  unfold arrowPointsR arrowPoints
  simp only [hw, e1, e2, e3, e4, c1, c2, c3, c4, s1, s2, s3, s4, t1, t2, t3, t4]
  cases a.orthogonalDirection b <;> rfl

include H in
theorem drawDebugInfoR_eq {doc : Document} {g : RouteGraph} (hg : ∀ n ∈ g.nodes, Coord n.location.x ∧ Coord n.location.y)
    (hr : ∀ t ∈ doc.bodyChildren, ∀ n r, doc.getNode t = some n → n.rect = some r → ∃ a b : Nat, a ≤ 2 ^ 22 ∧ b ≤ 2 ^ 22 ∧ r.maxX = a ∧ r.maxY = b) :
    drawDebugInfoR rnd doc g = drawDebugInfo doc g := by
  unfold drawDebugInfoR drawDebugInfo
  refine congrArg₂ (· ++ ·) (congrArg₂ (· ++ ·) (congrArg₂ (· ++ ·) ?_ ?_) rfl) ?_
  · refine List.flatMap_congr fun e _ => ?_
    unfold debugEdgeR debugEdge
    cases h1 : g.getNode e.1 with
    | none => rfl
    | some n =>
      cases h2 : g.getNode e.2 with
      | none => rfl
      | some k =>
        have hk := hg k (List.mem_of_getElem? h2)
        simp only [arrowPointsR_eq H n.location hk.1 hk.2]
  · refine List.flatMap_congr fun i _ => ?_
    unfold debugNodeR debugNode
    cases h1 : g.getNode i with
    | none => rfl
    | some n =>
      obtain ⟨⟨a, ha, ex⟩, ⟨b, hb, ey⟩⟩ := hg n (List.mem_of_getElem? h1)
      have e1 : rnd (n.location.x + circleRadius) = n.location.x + circleRadius :=
        H.half (a + 8) (by rw [ex, circleRadius]; push_cast; ring) (by omega) (by omega)
      have e2 : rnd (n.location.x + circleRadius + 2) = n.location.x + circleRadius + 2 :=
        H.half (a + 12) (by rw [ex, circleRadius]; push_cast; ring) (by omega) (by omega)
      have e3 : rnd (n.location.y + 4) = n.location.y + 4 := H.half (b + 8) (by rw [ey]; push_cast; ring) (by omega) (by omega)
      simp only [e1, e2, e3]
  · refine List.flatMap_congr fun t ht => ?_
    unfold debugShapeR debugShape
    cases h1 : doc.getNode t with
    | none => rfl
    | some n =>
      simp only
      cases h2 : n.rect with
      | none => rfl
      | some r =>
        obtain ⟨a, b, ha, hb, ex, ey⟩ := hr t ht n r h1 h2
        have m1 : r.maxXR rnd = r.maxX := by
          have : rnd r.maxX = r.maxX := H.half (2 * a) (by rw [ex]; push_cast; ring) (by omega) (by omega)
          exact this
        have m2 : r.maxYR rnd = r.maxY := by
          have : rnd r.maxY = r.maxY := H.half (2 * b) (by rw [ey]; push_cast; ring) (by omega) (by omega)
          exact this
        have e1 : rnd (r.maxX + 2) = r.maxX + 2 := H.half (2 * a + 4) (by rw [ex]; push_cast; ring) (by omega) (by omega)
        have e2 : rnd (r.maxY + 4) = r.maxY + 4 := H.half (2 * b + 8) (by rw [ey]; push_cast; ring) (by omega) (by omega)
        simp only [m1, m2, e1, e2]

end


/-- The routing as on the machine is the exact one, if the diagram is not too high. -/
theorem drawEdgePathM_eq (ovf : Rat → Rat) (w : Nat → Nat) (hw : ∀ n < 4294967296, w n = n) {q : Queue} {QI : List Entry → Prop}
    (hq : q.Lawful QI) {ns : List Nat} {doc : Document} (hscene : Scene ns doc) (hlow : Low ns) :
    drawEdgePathM w (buildRouteGraphR (roundOr ovf)) (edgeCostR (roundOr ovf) sqrtF32) q doc .new = drawEdgePath q doc .new := by
  have H := rounding_f32 ovf
  obtain ⟨g, hg⟩ := hscene.graph
  have hgrid := SceneGraph.grid hscene hlow hg
  have hcost : ∀ a b, Joined (connectNearest doc g) a b →
      edgeCostR (roundOr ovf) sqrtF32 (connectNearest doc g) a b = edgeCost (connectNearest doc g) a b := by
    intro a b hj
    obtain ⟨n, m, d, hn, hm, hl⟩ := hg.joined_linked hj
    have hn' : (connectNearest doc g).getNode a = some n := by
      rw [RouteGraph.getNode, (connect_nodes _ g).1]; exact hn
    have hm' : (connectNearest doc g).getNode b = some m := by
      rw [RouteGraph.getNode, (connect_nodes _ g).1]; exact hm
    have hcn := hgrid n (List.mem_of_getElem? hn)
    have hcm := hgrid m (List.mem_of_getElem? hm)
    simp only [edgeCostR, edgeCost, hn', hm']
    exact distanceR_axis H hcn.1 hcn.2 hcm.1 hcm.2 hl.1.axis
  unfold drawEdgePathM drawEdgePath
  rw [buildRouteGraphR_eq H hscene hlow, hg.built]
  simp only
  rw [hscene.collectPathsM_eq hw hq hg _ hcost _ (fun _ he => he)]
  rfl

/-- What is known about the drawing of a module with a table whose picture is at most 2^22 high. -/
theorem debug_facts {q : Queue} {QI : List Entry → Prop} (hq : q.Lawful QI) (m : Module) (hne : definitions m.entries ≠ [])
    (hh : picHeight (lineNumbers (definitions m.entries)) ≤ 2 ^ 22) :
    ∃ doc g, drawEdgePath q (laidOut m.intoMir) .new = .ok (doc, g) ∧
      (∀ n ∈ g.nodes, Coord n.location.x ∧ Coord n.location.y) ∧
      (∀ t ∈ doc.bodyChildren, ∀ n r, doc.getNode t = some n → n.rect = some r → ∃ a b : Nat, a ≤ 2 ^ 22 ∧ b ≤ 2 ^ 22 ∧ r.maxX = a ∧ r.maxY = b) ∧
      (∀ e ∈ doc.edges, ∀ ps, e.pathPoints = some ps → ∀ p ∈ ps, Inside p.x ∧ Inside p.y) ∧
      tables m.intoMir ≠ [] ∧ diagramHeight m.intoMir ≤ 2 ^ 22 ∧ Scene (lineNumbers (definitions m.entries)) (laidOut m.intoMir) ∧
      Low (lineNumbers (definitions m.entries)) := by
  have hd := drawable_intoMir m
  have htlen : (tables m.intoMir).length = (definitions m.entries).length := by rw [tables_intoMir, recordIds_length]
  have htne : tables m.intoMir ≠ [] := by
    intro h0
    rw [h0] at htlen
    exact hne (List.length_eq_zero_iff.mp htlen.symm)
  have hns : lineCounts m.intoMir = lineNumbers (definitions m.entries) := lineCounts_intoMir m
  have hv : (placeNodes m.intoMir).2 = ⟨⟨0, 0⟩, ⟨1160, picHeight (lineNumbers (definitions m.entries))⟩⟩ := by
    have := placed_viewBox hd.tabular htne
    simp only at this
    rw [this, hns, htlen, picHeight]
    simp [lineNumbers]
  have hdh : diagramHeight m.intoMir ≤ 2 ^ 22 := by
    have : (placeNodes m.intoMir).2.size.height = diagramHeight m.intoMir := by rw [placed_viewBox hd.tabular htne]; rfl
    rw [← this, hv]
    exact hh
  have hsize : (placeNodes m.intoMir).2.size.height ≤ 1000000000 := by
    rw [hv]
    exact hh.trans (by norm_num)
  obtain ⟨hscene, hlow⟩ := scene_of_height m.intoMir hd htne hdh
  obtain ⟨g, es, hg, hdraw, -⟩ := draw_ok hq hscene (edgeEnds_laidOut hd)
  have hgrid := SceneGraph.grid hscene hlow hg
  refine ⟨_, _, hdraw, ?_, ?_, ?_, htne, hdh, hns ▸ hscene, hns ▸ hlow⟩
  · intro n hn
    rw [(connect_nodes _ _).1] at hn
    exact hgrid n hn
  · intro t ht n r hn hr
    have ht' : t ∈ tables m.intoMir := by
      rw [← tables_laidOut m.intoMir]
      exact ht
    obtain ⟨k, hk⟩ := List.getElem?_of_mem ht'
    have hrect := rectOf_table hd.tabular k t hk
    rw [← rectOf_laidOut, rectOf_eq] at hrect
    have hn' : (laidOut m.intoMir).getNode t = some n := hn
    rw [hn', Option.bind_some, hr] at hrect
    cases hrect
    obtain ⟨b, hb⟩ := rowTop_nat (lineCounts m.intoMir) (k / 3)
    have hl := hlow k (childrenOf m.intoMir t).length (by rw [lineCounts, List.getElem?_map, hk]; rfl)
    have hk3 : k % 3 < 3 := Nat.mod_lt _ (by decide)
    refine ⟨50 + 380 * (k % 3) + 300, b + 35 * (childrenOf m.intoMir t).length, by omega, ?_, ?_, ?_⟩
    · rw [bot, hb] at hl
      have : ((b + 35 * (childrenOf m.intoMir t).length : Nat) : Rat) ≤ (2 ^ 22 : Nat) := by push_cast; linarith
      exact_mod_cast this
    · simp only [tableRect, Rect.maxX]
      push_cast
      ring
    · simp only [tableRect, Rect.maxY, hb]
      push_cast
      ring
  · intro e he ps hps p hp
    have hbox := C37_paths_in_view_box hq m.intoMir hd hsize _ _ hdraw e he ps hps p hp
    have hg := OnGrid.half (drawn_grid hd hsize hdraw he hps hp)
    simp only [hv, zero_add] at hbox
    exact ⟨⟨hg.1, by linarith [hbox.1], by linarith [hbox.2.1]⟩, ⟨hg.2, by linarith [hbox.2.2.1], by linarith [hbox.2.2.2]⟩⟩

/-- **C101**, exactness: computed with 32-bit floating point numbers and 32-bit path costs, the debug drawing of a module with a table
whose picture is at most 2^22 high is that of the exact model: no corner of an arrow and no place of a label is rounded. -/
theorem C101_exact (ovf : Rat → Rat) (w : Nat → Nat) (hw : ∀ n < 4294967296, w n = n) {q : Queue} {QI : List Entry → Prop}
    (hq : q.Lawful QI) (m : Module) (hne : definitions m.entries ≠ []) (hh : picHeight (lineNumbers (definitions m.entries)) ≤ 2 ^ 22) :
    drawModuleDebugM (roundOr ovf) sqrtF32 w q m = drawModuleDebug q m := by
  have H := rounding_f32 ovf
  obtain ⟨doc, g, hdraw, hnodes, hrects, -, htne, hdh, hscene, hlow⟩ := debug_facts hq m hne hh
  have hplain := drawModuleM_eq ovf w hw hq m hne hh
  obtain ⟨e1, e2⟩ := placed_exact H.exact m htne hdh
  rw [e1] at e2
  have hdrawM := (drawEdgePathM_eq ovf w hw hq hscene hlow).trans hdraw
  unfold drawModuleM drawModule at hplain
  unfold drawModuleDebugM drawModuleDebug
  rw [e1] at hplain ⊢
  simp only at hplain ⊢
  rw [e2] at hplain ⊢
  rw [show laidOut m.intoMir = placeTerminalPorts (placeNodes m.intoMir).1 from rfl] at hdraw hdrawM
  rw [hdrawM, hdraw] at hplain ⊢
  simp only at hplain ⊢
  unfold renderWithR renderWith
  rw [hplain]
  cases render (some (placeNodes m.intoMir).2) doc with
  | error e => rfl
  | ok el => cases el; simp only [drawDebugInfoR_eq H hnodes hrects]

/-! ## The text -/

theorem Coord.small {x : Rat} (h : Coord x) (c : Int) (hc : |c| ≤ 100) {y : Rat} (hy : y = x + (c : Rat) / 2) : Small y := by
  obtain ⟨n, hn, rfl⟩ := h
  have := abs_le.mp hc
  refine ⟨n + c, abs_lt.mpr ⟨by omega, by omega⟩, ?_⟩
  rw [hy]
  push_cast
  ring

theorem smallDot {p : Point} (hx : Small p.x) (hy : Small p.y) (fill : Str) : AllNums Small (debugDot p fill) := by
  refine allNums_leaf ?_
  simp only [List.map_cons, List.map_nil, List.mem_cons, List.not_mem_nil, or_false]
  rintro v (rfl | rfl | rfl | rfl | rfl | rfl) <;> simp only [AttrVal.numbersIn, List.mem_cons, List.not_mem_nil, or_false, forall_eq,
    false_imp_iff, implies_true]
  · exact hx
  · exact hy
  · exact ⟨8, by norm_num, by norm_num [circleRadius]⟩
  · exact ⟨2, by norm_num, by norm_num⟩

theorem smallLabel {x y : Rat} (hx : Small x) (hy : Small y) (t : Str) : AllNums Small (debugLabel x y t) := by
  refine allNums_leaf ?_
  simp only [List.map_cons, List.map_nil, List.mem_cons, List.not_mem_nil, or_false]
  rintro v (rfl | rfl | rfl | rfl | rfl | rfl) <;> simp only [AttrVal.numbersIn, List.mem_cons, List.not_mem_nil, or_false, forall_eq,
    false_imp_iff, implies_true]
  · exact hx
  · exact hy
  · exact ⟨24, by norm_num, by norm_num⟩

theorem smallArrow (a : Point) {b : Point} (hx : Coord b.x) (hy : Coord b.y) : ∀ p ∈ arrowPoints a b, Small p.x ∧ Small p.y := by
  have x0 : Small b.x := hx.small 0 (by norm_num) (by push_cast; ring)
  have y0 : Small b.y := hy.small 0 (by norm_num) (by push_cast; ring)
  have x1 : Small (b.x + 5 / 2) := hx.small 5 (by norm_num) (by push_cast; ring)
  have y1 : Small (b.y + 5 / 2) := hy.small 5 (by norm_num) (by push_cast; ring)
  have x2 : Small (b.x - 5 / 2) := hx.small (-5) (by norm_num) (by push_cast; ring)
  have y2 : Small (b.y - 5 / 2) := hy.small (-5) (by norm_num) (by push_cast; ring)
  have x3 : Small (b.x + circleRadius) := hx.small 8 (by norm_num) (by rw [circleRadius]; push_cast; ring)
  have y3 : Small (b.y + circleRadius) := hy.small 8 (by norm_num) (by rw [circleRadius]; push_cast; ring)
  have x4 : Small (b.x - circleRadius) := hx.small (-8) (by norm_num) (by rw [circleRadius]; push_cast; ring)
  have y4 : Small (b.y - circleRadius) := hy.small (-8) (by norm_num) (by rw [circleRadius]; push_cast; ring)
  have x5 : Small (b.x + 7 + circleRadius) := hx.small 22 (by norm_num) (by rw [circleRadius]; push_cast; ring)
  have y5 : Small (b.y + 7 + circleRadius) := hy.small 22 (by norm_num) (by rw [circleRadius]; push_cast; ring)
  have x6 : Small (b.x - 7 - circleRadius) := hx.small (-22) (by norm_num) (by rw [circleRadius]; push_cast; ring)
  have y6 : Small (b.y - 7 - circleRadius) := hy.small (-22) (by norm_num) (by rw [circleRadius]; push_cast; ring)
  intro p hp
  unfold arrowPoints at hp
  cases hd : a.orthogonalDirection b <;> simp only [hd, List.mem_cons, List.not_mem_nil, or_false] at hp <;>
    rcases hp with rfl | rfl | rfl <;> constructor <;> assumption

/-- All numbers of the debug information are multiples of 1/2 below 2^23. -/
theorem small_info {doc : Document} {g : RouteGraph} (hg : ∀ n ∈ g.nodes, Coord n.location.x ∧ Coord n.location.y)
    (hr : ∀ t ∈ doc.bodyChildren, ∀ n r, doc.getNode t = some n → n.rect = some r → ∃ a b : Nat, a ≤ 2 ^ 22 ∧ b ≤ 2 ^ 22 ∧ r.maxX = a ∧ r.maxY = b)
    (hp : ∀ e ∈ doc.edges, ∀ ps, e.pathPoints = some ps → ∀ p ∈ ps, Inside p.x ∧ Inside p.y) :
    ∀ e ∈ drawDebugInfo doc g, AllNums Small e := by
  intro e he
  simp only [drawDebugInfo, List.mem_append, List.mem_flatMap] at he
  rcases he with ((⟨l, -, he⟩ | ⟨i, -, he⟩) | ⟨ed, hed, he⟩) | ⟨t, ht, he⟩
  · unfold debugEdge at he
    cases h1 : g.getNode l.1 with
    | none => simp [h1] at he
    | some n =>
      cases h2 : g.getNode l.2 with
      | none => simp [h1, h2] at he
      | some k =>
        have hn := hg n (List.mem_of_getElem? h1)
        have hk := hg k (List.mem_of_getElem? h2)
        have s0 : ∀ {x}, Coord x → Small x := fun h => h.small 0 (by norm_num) (by push_cast; ring)
        simp only [h1, h2, List.mem_cons, List.not_mem_nil, or_false] at he
        rcases he with rfl | rfl
        · refine allNums_leaf ?_
          simp only [List.map_cons, List.map_nil, List.mem_cons, List.not_mem_nil, or_false]
          rintro v (rfl | rfl | rfl | rfl | rfl | rfl) <;> simp only [AttrVal.numbersIn, List.mem_cons, List.not_mem_nil, or_false, forall_eq,
            false_imp_iff, implies_true]
          · exact s0 hn.1
          · exact s0 hn.2
          · exact s0 hk.1
          · exact s0 hk.2
          · exact ⟨2, by norm_num, by norm_num⟩
        · refine allNums_leaf ?_
          simp only [List.map_cons, List.map_nil, List.mem_cons, List.not_mem_nil, or_false]
          rintro v (rfl | rfl)
          · simp [AttrVal.numbersIn]
          · intro x hx
            simp only [AttrVal.numbersIn, List.mem_flatMap, List.mem_cons, List.not_mem_nil, or_false] at hx
            obtain ⟨p, hp, rfl | rfl⟩ := hx
            · exact (smallArrow _ hk.1 hk.2 p hp).1
            · exact (smallArrow _ hk.1 hk.2 p hp).2
  · unfold debugNode at he
    cases h1 : g.getNode i with
    | none => simp [h1] at he
    | some n =>
      have hn := hg n (List.mem_of_getElem? h1)
      simp only [h1, List.mem_cons, List.not_mem_nil, or_false] at he
      rcases he with rfl | rfl
      · exact smallDot (hn.1.small 0 (by norm_num) (by push_cast; ring)) (hn.2.small 0 (by norm_num) (by push_cast; ring)) _
      · exact smallLabel (hn.1.small 12 (by norm_num) (by rw [circleRadius]; push_cast; ring)) (hn.2.small 8 (by norm_num) (by push_cast; ring)) _
  · unfold debugPath at he
    cases h1 : ed.pathPoints with
    | none => simp [h1] at he
    | some ps =>
      simp only [h1, List.mem_map] at he
      obtain ⟨p, hpp, rfl⟩ := he
      have := hp ed hed ps h1 p hpp
      exact smallDot this.1.small'.2 this.2.small'.2 _
  · unfold debugShape at he
    cases h1 : doc.getNode t with
    | none => simp [h1] at he
    | some n =>
      cases h2 : n.rect with
      | none => simp [h1, h2] at he
      | some r =>
        simp only [h1, h2, List.mem_cons, List.not_mem_nil, or_false] at he
        subst he
        obtain ⟨a, b, ha, hb, ex, ey⟩ := hr t ht n r h1 h2
        refine smallLabel ⟨2 * a + 4, ?_, ?_⟩ ⟨2 * b + 8, ?_, ?_⟩ _
        · rw [abs_lt]; omega
        · rw [ex]; push_cast; ring
        · rw [abs_lt]; omega
        · rw [ey]; push_cast; ring

/-- The lines of a diagram that is not too high. -/
theorem lines_sum {ns : List Nat} (h : Low ns) : ns.sum ≤ 2 ^ 40 := by
  have hrow : ∀ r : Nat, 80 * (r : Rat) ≤ rowTop ns r := by
    intro r
    induction r with
    | zero => norm_num [rowTop]
    | succ r ih =>
      have : (0 : Rat) ≤ tallest ns r := by exact_mod_cast Nat.zero_le _
      rw [rowTop]
      push_cast
      linarith
  have hone : ∀ x ∈ ns, x ≤ 2 ^ 17 := by
    intro x hx
    obtain ⟨k, hk⟩ := List.getElem?_of_mem hx
    have := h k x hk
    have h0 := hrow (k / 3)
    have hk0 : (0 : Rat) ≤ ((k / 3 : Nat) : Rat) := by exact_mod_cast Nat.zero_le _
    rw [bot] at this
    have : (x : Rat) ≤ (2 ^ 17 : Nat) := by push_cast; linarith
    exact_mod_cast this
  have hlen : ns.length ≤ 2 ^ 18 := by
    by_contra hc
    have hk : (2 ^ 18 : Nat) < ns.length := by omega
    have := h (2 ^ 18) (ns[2 ^ 18]) (List.getElem?_eq_getElem hk)
    have h0 := hrow (2 ^ 18 / 3)
    have hx0 : (0 : Rat) ≤ ((ns[2 ^ 18] : Nat) : Rat) := by exact_mod_cast Nat.zero_le _
    have e : ((2 ^ 18 / 3 : Nat) : Rat) = 87381 := by norm_num
    rw [bot] at this
    rw [e] at h0
    generalize rowTop ns (2 ^ 18 / 3) = top at this h0
    generalize ((ns[2 ^ 18] : Nat) : Rat) = x at this hx0
    linarith
  calc ns.sum ≤ ns.length * 2 ^ 17 := List.sum_le_card_nsmul ns _ hone
    _ ≤ 2 ^ 18 * 2 ^ 17 := Nat.mul_le_mul_right _ hlen
    _ ≤ 2 ^ 40 := by norm_num

/-- **C101**, the text: computed on all values of `f32`, with 32-bit path costs and with numbers printed as `f32`, the text of the debug
drawing of a module with a table whose picture is at most 2^22 high is that of the exact model.  What that text shows is said by C58, C59
and C71. -/
theorem C101_text (tie : Fl → Fl → Bool) (w : Nat → Nat) (hw : ∀ n < 4294967296, w n = n) {q : Queue} {QI : List Entry → Prop}
    (hq : q.Lawful QI) (esc : Str → Str) (m : Module) (hne : definitions m.entries ≠ [])
    (hh : picHeight (lineNumbers (definitions m.entries)) ≤ 2 ^ 22) :
    (drawModuleDebugFl tie w q m).map (svgText esc) = (drawModuleDebug q m).map (svgText esc) := by
  obtain ⟨doc, g, hdraw, hnodes, hrects, hpaths, htne, hdh, hscene, hlow⟩ := debug_facts hq m hne hh
  rw [C101_values tie w q m (lines_sum hlow)]
  have hex := C101_exact roundF32 w hw hq m hne hh
  rw [roundOr_roundF32] at hex
  rw [hex]
  cases h : drawModuleDebug q m with
  | error e => rfl
  | ok el =>
    refine congrArg Except.ok ?_
    rw [svgText_shown]
    have hsize : (placeNodes m.intoMir).2.size.height ≤ 1000000000 := by
      have : (placeNodes m.intoMir).2.size.height = diagramHeight m.intoMir := by
        rw [placed_viewBox (tabular_intoMir m) htne]; rfl
      rw [this]
      exact hdh.trans (by norm_num)
    obtain ⟨doc', g', hdraw', -, -, hdbg, hplain⟩ := C59_module hq m hsize
    rw [hdraw] at hdraw'
    cases hdraw'
    have key : AllNums Small (withNamespace el) := by
      rw [hdbg] at h
      unfold renderWith at h hplain
      cases hr : render (some (placeNodes m.intoMir).2) doc with
      | error e => rw [hr] at h; cases h
      | ok el0 =>
        obtain ⟨name, attrs, children, text⟩ := el0
        rw [hr] at h hplain
        simp only at h hplain
        cases h
        obtain ⟨s1, s2⟩ := small_drawing hq m hne hh _ hplain
        refine ⟨s1, ?_⟩
        rw [allNumsList_iff] at s2 ⊢
        intro e he
        rcases List.mem_append.mp he with he | he
        · exact s2 e he
        · exact small_info hnodes hrects hpaths e he
    refine toTextWith_eq (P := Small) ?_ esc _ key
    rintro x ⟨n, hn, rfl⟩
    exact displayF32_half n hn

/-! A module meeting the hypotheses: three tables, whose debug drawing on all values of `f32` has 25 arrows. -/
set_option maxRecDepth 100000 in
example : definitions threeTables.entries ≠ [] ∧ picHeight (lineNumbers (definitions threeTables.entries)) ≤ 2 ^ 22 ∧
    (lineNumbers (definitions threeTables.entries)).sum ≤ 2 ^ 40 ∧
    (match drawModuleDebugFl (fun _ _ => true) id BinHeap.queue threeTables with
      | .ok el => (el.children.filter fun e => e.name == c!"polygon").length
      | .error _ => 0) = 25 := by
  decide +kernel

end Seiren
