import Verif.Model.IeeeDebug
import Verif.Props.IeeeDraw
/-! # The debug drawing on all values of `f32` is the rounded one -/

namespace Seiren
open Spec

theorem shownAttr_one (k : Str) : shownAttr (k, .num 1) = (k, .str c!"1") := by
  unfold shownAttr
  rw [show (AttrVal.num 1).displayWith displayF32 = displayF32 1 from rfl, show displayF32 1 = c!"1" by decide +kernel]

theorem shownAttr_twelve (k : Str) : shownAttr (k, .num 12) = (k, .str c!"12") := by
  unfold shownAttr
  rw [show (AttrVal.num 12).displayWith displayF32 = displayF32 12 from rfl, show displayF32 12 = c!"12" by decide +kernel]

theorem circleRadius_fl : flCircleRadius = ofNum circleRadius := (ofNum_ne_zero (by norm_num)).symm
theorem fin_four : Fl.fin 4 = ofNum 4 := (ofNum_ne_zero (by norm_num)).symm
theorem fin_seven : Fl.fin 7 = ofNum 7 := (ofNum_ne_zero (by norm_num)).symm
theorem fin_five : Fl.fin 5 = ofNum 5 := (ofNum_ne_zero (by norm_num)).symm

theorem num_nat (k n : Nat) (h : n ≤ 7) (hk : 3 ≤ k) : Num k (n : Rat) := by
  refine num_lit n (by omega) ?_
  calc n ≤ 2 ^ 3 := by omega
    _ ≤ 2 ^ k := Nat.pow_le_pow_right (by norm_num) hk

theorem num_circleRadius (k : Nat) (hk : 3 ≤ k) : Num k circleRadius := num_nat k 4 (by omega) hk

theorem width_fl : Fl.div (.fin 5) Fl.two = ofNum (roundF32 (5 / 2)) ∧ ∀ k, 3 ≤ k → k ≤ 104 → Num k (roundF32 (5 / 2)) := by
  constructor
  · rw [fin_five]
    exact fl_half (k := 3) (by norm_num) (num_nat 3 5 (by omega) (le_refl 3)) (by norm_num)
  · intro k hk hk2
    exact num_half (k := k) hk2 (num_nat k 5 (by omega) hk)

theorem debugDot_fl (p : Point) (fill : Str) : debugDotFl p.fl fill = shown (debugDot p fill) := by
  unfold debugDotFl debugDot
  rw [shown_leaf]
  simp only [List.map_cons, List.map_nil, shownAttr_one, attr_str]
  simp only [attr_num, circleRadius_fl]
  rfl

theorem debugLabel_fl (x y : Rat) (t : Str) : debugLabelFl (ofNum x) (ofNum y) t = shown (debugLabel x y t) := by
  unfold debugLabelFl debugLabel
  rw [shown_mk]
  simp only [List.map_cons, List.map_nil, shownAttr_twelve, attr_str]
  simp only [attr_num]
  rfl

theorem arrowPoints_fl {a b : Point} (ha : PointNum 61 a) (hb : PointNum 61 b) :
    arrowPointsFl a.fl b.fl = (arrowPointsR roundF32 a b).map Point.fl := by
  obtain ⟨ew, nw⟩ := width_fl
  have nw := nw 61 (by norm_num) (by norm_num)
  have h7 : Num 61 ((7 : Nat) : Rat) := num_nat 61 7 (by omega) (by norm_num)
  have hr := num_circleRadius 61 (by norm_num)
  have hr2 := num_circleRadius 62 (by norm_num)
  have sx : Fl.sub b.fl.x (Fl.div (.fin 5) Fl.two) = ofNum (roundF32 (b.x - roundF32 (5 / 2))) := by rw [ew]; exact fl_sub' (by norm_num) hb.x nw
  have ax : Fl.add b.fl.x (Fl.div (.fin 5) Fl.two) = ofNum (roundF32 (b.x + roundF32 (5 / 2))) := by rw [ew]; exact fl_add' (by norm_num) hb.x nw
  have sy : Fl.sub b.fl.y (Fl.div (.fin 5) Fl.two) = ofNum (roundF32 (b.y - roundF32 (5 / 2))) := by rw [ew]; exact fl_sub' (by norm_num) hb.y nw
  have ay : Fl.add b.fl.y (Fl.div (.fin 5) Fl.two) = ofNum (roundF32 (b.y + roundF32 (5 / 2))) := by rw [ew]; exact fl_add' (by norm_num) hb.y nw
  have rax : Fl.add b.fl.x flCircleRadius = ofNum (roundF32 (b.x + circleRadius)) := by rw [circleRadius_fl]; exact fl_add' (by norm_num) hb.x hr
  have ray : Fl.add b.fl.y flCircleRadius = ofNum (roundF32 (b.y + circleRadius)) := by rw [circleRadius_fl]; exact fl_add' (by norm_num) hb.y hr
  have rsx : Fl.sub b.fl.x flCircleRadius = ofNum (roundF32 (b.x - circleRadius)) := by rw [circleRadius_fl]; exact fl_sub' (by norm_num) hb.x hr
  have rsy : Fl.sub b.fl.y flCircleRadius = ofNum (roundF32 (b.y - circleRadius)) := by rw [circleRadius_fl]; exact fl_sub' (by norm_num) hb.y hr
  have hax : Fl.add (Fl.add b.fl.x (.fin 7)) flCircleRadius = ofNum (roundF32 (roundF32 (b.x + 7) + circleRadius)) := by
    rw [fin_seven, circleRadius_fl, show Fl.add b.fl.x (ofNum 7) = ofNum (roundF32 (b.x + 7)) from fl_add' (by norm_num) hb.x h7]
    exact fl_add' (by norm_num) (num_add (by norm_num) hb.x h7) hr2
  have hay : Fl.add (Fl.add b.fl.y (.fin 7)) flCircleRadius = ofNum (roundF32 (roundF32 (b.y + 7) + circleRadius)) := by
    rw [fin_seven, circleRadius_fl, show Fl.add b.fl.y (ofNum 7) = ofNum (roundF32 (b.y + 7)) from fl_add' (by norm_num) hb.y h7]
    exact fl_add' (by norm_num) (num_add (by norm_num) hb.y h7) hr2
  have hsx : Fl.sub (Fl.sub b.fl.x (.fin 7)) flCircleRadius = ofNum (roundF32 (roundF32 (b.x - 7) - circleRadius)) := by
    rw [fin_seven, circleRadius_fl, show Fl.sub b.fl.x (ofNum 7) = ofNum (roundF32 (b.x - 7)) from fl_sub' (by norm_num) hb.x h7]
    exact fl_sub' (by norm_num) (num_sub (by norm_num) hb.x h7) hr2
  have hsy : Fl.sub (Fl.sub b.fl.y (.fin 7)) flCircleRadius = ofNum (roundF32 (roundF32 (b.y - 7) - circleRadius)) := by
    rw [fin_seven, circleRadius_fl, show Fl.sub b.fl.y (ofNum 7) = ofNum (roundF32 (b.y - 7)) from fl_sub' (by norm_num) hb.y h7]
    exact fl_sub' (by norm_num) (num_sub (by norm_num) hb.y h7) hr2
  unfold arrowPointsFl arrowPointsR
  simp only
  rw [fl_direction ha hb, sx, ax, sy, ay, rax, ray, rsx, rsy, hax, hay, hsx, hsy]
  cases a.orthogonalDirection b <;> rfl

theorem shownAttr_points (k : Str) (ps : List Point) : shownAttr (k, .points ps) =
    (k, .str (joinWith c!" " ((ps.map Point.fl).map fun p => p.x.display ++ c!", " ++ p.y.display))) := by
  unfold shownAttr
  simp only [AttrVal.displayWith, List.map_map]
  congr 4
  funext p
  simp only [Function.comp, Point.fl, display_ofNum]

theorem graphNode_fl (g : RouteGraph) (i : RouteNodeId) : g.fl.getNode i = (g.getNode i).map RouteNodeData.fl := by
  simp [FlRouteGraph.getNode, RouteGraph.getNode, RouteGraph.fl]

theorem debugEdge_fl {g : RouteGraph} (hg : GraphNum g) (e : RouteNodeId × RouteNodeId) :
    debugEdgeFl g.fl e = shownAll (debugEdgeR roundF32 g e) := by
  unfold debugEdgeFl debugEdgeR
  rw [graphNode_fl, graphNode_fl]
  cases h1 : g.getNode e.1 with
  | none => rfl
  | some n =>
    cases h2 : g.getNode e.2 with
    | none => rfl
    | some k =>
      have hn := hg n (List.mem_of_getElem? h1)
      have hk := hg k (List.mem_of_getElem? h2)
      simp only [Option.map_some, shownAll, shown_leaf, List.map_cons, List.map_nil, shownAttr_one, shownAttr_points, attr_str]
      simp only [attr_num, show n.fl.location = n.location.fl from rfl, show k.fl.location = k.location.fl from rfl, arrowPoints_fl hn hk]
      rfl

theorem debugNode_fl {g : RouteGraph} (hg : GraphNum g) (i : RouteNodeId) : debugNodeFl g.fl i = shownAll (debugNodeR roundF32 g i) := by
  unfold debugNodeFl debugNodeR
  rw [graphNode_fl]
  cases h1 : g.getNode i with
  | none => rfl
  | some n =>
    have hn := hg n (List.mem_of_getElem? h1)
    have hr := num_circleRadius 61 (by norm_num)
    have e1 : Fl.add (Fl.add n.location.fl.x flCircleRadius) Fl.two = ofNum (roundF32 (roundF32 (n.location.x + circleRadius) + 2)) := by
      rw [circleRadius_fl, ofNum_two, show Fl.add n.location.fl.x (ofNum circleRadius) = ofNum (roundF32 (n.location.x + circleRadius)) from
        fl_add' (by norm_num) hn.x hr]
      exact fl_add' (by norm_num) (num_add (by norm_num) hn.x hr) (num_nat 62 2 (by omega) (by norm_num))
    have e2 : Fl.add n.location.fl.y (.fin 4) = ofNum (roundF32 (n.location.y + 4)) := by
      rw [fin_four]; exact fl_add' (by norm_num) hn.y (num_nat 61 4 (by omega) (by norm_num))
    simp only [Option.map_some, shownAll, show n.fl.location = n.location.fl from rfl]
    rw [e1, e2, debugDot_fl, debugLabel_fl]

theorem debugPath_fl (e : EdgeData) : debugPathFl e.fl = shownAll (debugPath e) := by
  unfold debugPathFl debugPath
  rw [show e.fl.pathPoints = e.pathPoints.map (·.map Point.fl) from rfl]
  cases e.pathPoints with
  | none => rfl
  | some ps =>
    simp only [Option.map_some, List.map_map]
    induction ps with
    | nil => rfl
    | cons p ps ih =>
      rw [List.map_cons, List.map_cons, shownAll, ← ih, ← debugDot_fl]
      rfl

theorem debugShape_fl {d : Document} (hd : DocNum d) (i : NodeId) : debugShapeFl d.fl i = shownAll (debugShapeR roundF32 d i) := by
  unfold debugShapeFl debugShapeR
  rw [getNode_fl]
  cases h1 : d.getNode i with
  | none => rfl
  | some n =>
    simp only [Option.map_some]
    rw [rect_fl]
    cases h2 : n.rect with
    | none => rfl
    | some r =>
      have hr := nodeNum_rect (docNum_get hd h1) h2
      obtain ⟨ex, nx⟩ := fl_maxX (by norm_num) hr
      obtain ⟨ey, ny⟩ := fl_maxY (by norm_num) hr
      simp only [Option.map_some, shownAll]
      rw [ex, ey, ofNum_two, fin_four, show Fl.add (ofNum (r.maxXR roundF32)) (ofNum 2) = ofNum (roundF32 (r.maxXR roundF32 + 2)) from
        fl_add' (by norm_num) nx (num_nat 60 2 (by omega) (by norm_num)),
        show Fl.add (ofNum (r.maxYR roundF32)) (ofNum 4) = ofNum (roundF32 (r.maxYR roundF32 + 4)) from
        fl_add' (by norm_num) ny (num_nat 60 4 (by omega) (by norm_num)), debugLabel_fl]

theorem shownAll_flatMap {α : Type} (f : α → List Element) (l : List α) : shownAll (l.flatMap f) = l.flatMap fun a => shownAll (f a) := by
  induction l with
  | nil => rfl
  | cons a l ih => rw [List.flatMap_cons, List.flatMap_cons, shownAll_append, ih]

theorem drawDebugInfo_fl {d : Document} (hd : DocNum d) {g : RouteGraph} (hg : GraphNum g) :
    drawDebugInfoFl d.fl g.fl = shownAll (drawDebugInfoR roundF32 d g) := by
  unfold drawDebugInfoFl drawDebugInfoR
  simp only [shownAll_append, shownAll_flatMap]
  rw [bodyChildren_fl, show g.fl.edges = g.edges from rfl, show List.range g.fl.nodes.length = g.nodeIds by simp [RouteGraph.fl, RouteGraph.nodeIds],
    show d.fl.edges = d.edges.map EdgeData.fl from rfl, List.flatMap_map]
  refine congrArg₂ (· ++ ·) (congrArg₂ (· ++ ·) (congrArg₂ (· ++ ·) ?_ ?_) ?_) ?_
  · exact List.flatMap_congr fun e _ => debugEdge_fl hg e
  · exact List.flatMap_congr fun e _ => debugNode_fl hg e
  · exact List.flatMap_congr fun e _ => debugPath_fl e
  · exact List.flatMap_congr fun e _ => debugShape_fl hd e

theorem renderWith_fl (v : Option Rect) {d : Document} (hd : DocNum d) (he : ∀ e ∈ d.edges, EdgeNum e) {g : RouteGraph} (hg : GraphNum g) :
    renderWithFl (v.map Rect.fl) (some g.fl) d.fl = (renderWithR roundF32 v (some g) d).map shown := by
  unfold renderWithFl renderWithR
  rw [render_fl v hd he]
  cases renderR roundF32 v d with
  | error e => rfl
  | ok el =>
    obtain ⟨name, attrs, children, text⟩ := el
    simp only [Except.map, shown_mk, shownAll_append, drawDebugInfo_fl hd hg]

/-- The nodes of the route graph are numbers of the format. -/
theorem drawEdgePathM_graph (w : Nat → Nat) (q : Queue) {d d' : Document} (hd : DocNum d) {g g' : RouteGraph} (hg : GraphNum g)
    (h : drawEdgePathM w (buildRouteGraphR roundF32) (edgeCostR roundF32 sqrtF32) q d g = .ok (d', g')) : GraphNum g' := by
  have hb := buildRouteGraph_fl (fun _ _ => true) hd hg
  unfold drawEdgePathM at h
  cases hr : buildRouteGraphR roundF32 d g with
  | error e => rw [hr] at h; cases h
  | ok g1 =>
    rw [hr] at h hb
    obtain ⟨-, hg1⟩ := hb
    simp only at h
    split at h
    · cases h
    · split at h
      · cases h
      · cases h; exact hg1

end Seiren
