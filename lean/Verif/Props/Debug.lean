import Verif.Model.Debug
import Verif.Props.Drawing
/-! # C59, C60: the debug drawing and the notebook output -/

namespace Seiren
open Spec

/-- The point at distance `l` before `b` on the way in direction `d`, moved by `w` to the right or down. -/
def Spec.before (d : Orientation) (b : Point) (l w : Rat) : Point :=
  match d with
  | .up => ⟨b.x + w, b.y + l⟩
  | .down => ⟨b.x + w, b.y - l⟩
  | .left => ⟨b.x + l, b.y + w⟩
  | .right => ⟨b.x - l, b.y + w⟩

/-- An arrow pointing in direction `d` to `b`: a triangle whose tip is 4 before `b`, 7 long and 5 wide. -/
def Spec.IsArrow (d : Orientation) (b : Point) (ps : List Point) : Prop :=
  ∃ t l r, ps = [t, l, r] ∧ t = before d b 4 0 ∧
    ((l = before d b 11 (-5/2) ∧ r = before d b 11 (5/2)) ∨ (l = before d b 11 (5/2) ∧ r = before d b 11 (-5/2)))

/-- How an edge of the route graph from `a` to `b` is shown. -/
def Spec.ShowsLink (a b : Point) (els : List Element) : Prop :=
  ∃ ps, els = [.mk c!"line" [(c!"x1", .num a.x), (c!"y1", .num a.y), (c!"x2", .num b.x), (c!"y2", .num b.y),
        (c!"stroke", .str c!"red"), (c!"stroke-width", .num 1)] [] none,
      .mk c!"polygon" [(c!"fill", .str c!"red"), (c!"points", .points ps)] [] none] ∧
    ∀ d, Towards d a b → IsArrow d b ps

/-- A dot of radius 4. -/
def Spec.dot (p : Point) (fill : Str) : Element :=
  .mk c!"circle" [(c!"cx", .num p.x), (c!"cy", .num p.y), (c!"r", .num 4), (c!"stroke", .str c!"white"),
    (c!"stroke-width", .num 1), (c!"fill", .str fill)] [] none

/-- A number in small white type. -/
def Spec.number (x y : Rat) (n : Nat) : Element :=
  .mk c!"text" [(c!"x", .num x), (c!"y", .num y), (c!"dominant-baseline", .str c!"hanging"), (c!"fill", .str c!"white"),
    (c!"font-size", .num 12), (c!"font-family", .str c!"monospace")] [] (some (Nat.toDigits 10 n))

theorem isArrow_arrowPoints {d : Orientation} {a b : Point} (h : Towards d a b) : IsArrow d b (arrowPoints a b) := by
  have hax : AxisAligned a b := by
    refine ⟨?_, ?_⟩
    · rintro rfl
      cases d <;> exact absurd h.2 (lt_irrefl _)
    · cases d
      · exact Or.inl h.1.symm
      · exact Or.inl h.1.symm
      · exact Or.inr h.1.symm
      · exact Or.inr h.1.symm
  have hd : a.orthogonalDirection b = d := ((C51_orthogonal_direction a b hax).1 d).mpr h
  unfold arrowPoints
  rw [hd]
  cases d <;> refine ⟨_, _, _, rfl, ?_, ?_⟩ <;> simp only [before, circleRadius, Point.mk.injEq] <;> grind

theorem flatMap_flatten {α β : Type} (l : List α) (f : α → List β) : l.flatMap f = (l.map f).flatten := rfl

/-- **C59.** Asking for debug information never changes whether rendering succeeds, nor anything that is drawn without it:
it only appends elements. -/
theorem C59_debug_only_adds (v : Option Rect) (g : RouteGraph) (doc : Document) :
    (∀ e, renderWith v (some g) doc = .error e ↔ renderWith v none doc = .error e) ∧
    (∀ el, renderWith v none doc = .ok el → ∃ el', renderWith v (some g) doc = .ok el' ∧ el'.name = el.name ∧
      el'.attrs = el.attrs ∧ el'.text = el.text ∧ el.children <+: el'.children) ∧
    renderWith v none doc = render v doc := by
  unfold renderWith
  cases h : render v doc with
  | error e => exact ⟨fun _ => Iff.rfl, fun _ h => (by cases h), rfl⟩
  | ok el =>
    obtain ⟨n, a, c, t⟩ := el
    refine ⟨fun e => ⟨fun h => (by cases h), fun h => (by cases h)⟩, ?_, rfl⟩
    intro el hel
    cases hel
    exact ⟨_, rfl, rfl, rfl, rfl, List.prefix_append _ _⟩

/-- **C59.** What is appended for a well-formed route graph: first every edge of the graph with an arrow along its
direction, then every node with its number, then the points of every path, then the numbers of the placed children of
the body. -/
theorem C59_debug_shows (g : RouteGraph) (hg : WellFormed g) (v : Option Rect) (doc : Document) (el : Element)
    (h : renderWith v none doc = .ok el) :
    ∃ (el' : Element) (links : List (List Element)),
      renderWith v (some g) doc = .ok el' ∧
      el'.children = el.children ++ links.flatten ++
        g.nodes.zipIdx.flatMap (fun (n, i) =>
          [dot n.location c!"red", number (n.location.x + 6) (n.location.y + 4) i]) ++
        doc.edges.flatMap (fun e => (e.pathPoints.getD []).map fun p => dot p c!"orange") ++
        doc.bodyChildren.filterMap (fun i => ((doc.nodes[i]?).bind NodeData.rect).map fun r =>
          number (r.origin.x + r.size.width + 2) (r.origin.y + r.size.height + 4) i) ∧
      List.Forall₂ (fun e els => ∃ n m, g.nodes[e.1]? = some n ∧ g.nodes[e.2]? = some m ∧ ShowsLink n.location m.location els)
        g.edges links := by
  unfold renderWith at h ⊢
  cases hr : render v doc with
  | error e => rw [hr] at h; cases h
  | ok el0 =>
    obtain ⟨n, a, c, t⟩ := el0
    rw [hr] at h
    cases h
    refine ⟨_, g.edges.map (debugEdge g), rfl, ?_, ?_⟩
    · have e1 : g.nodeIds.flatMap (debugNode g) = g.nodes.zipIdx.flatMap (fun (n, i) =>
          [dot n.location c!"red", number (n.location.x + 6) (n.location.y + 4) i]) := by
        have : g.nodeIds = g.nodes.zipIdx.map Prod.snd := by
          rw [RouteGraph.nodeIds, List.zipIdx_map_snd, List.range_eq_range']
        rw [this, List.flatMap_map]
        apply List.flatMap_congr
        rintro ⟨n, i⟩ hi
        have hn : g.getNode i = some n := List.mem_zipIdx_iff_getElem?.mp hi
        have e : n.location.x + circleRadius + 2 = n.location.x + 6 := by unfold circleRadius; linarith
        simp only [debugNode, hn, e]
        rfl
      have e2 : doc.edges.flatMap debugPath =
          doc.edges.flatMap (fun e => (e.pathPoints.getD []).map fun p => dot p c!"orange") := by
        apply List.flatMap_congr
        intro e _
        unfold debugPath
        cases e.pathPoints <;> rfl
      have e3 : doc.bodyChildren.flatMap (debugShape doc) =
          doc.bodyChildren.filterMap (fun i => ((doc.nodes[i]?).bind NodeData.rect).map fun r =>
            number (r.origin.x + r.size.width + 2) (r.origin.y + r.size.height + 4) i) := by
        rw [List.filterMap_eq_flatMap_toList]
        apply List.flatMap_congr
        intro i _
        unfold debugShape Document.getNode
        cases doc.nodes[i]? with
        | none => rfl
        | some n =>
          simp only [Option.bind_some]
          cases n.rect <;> rfl
      simp only [Element.children, drawDebugInfo, e1, e2, e3, flatMap_flatten g.edges]
      simp only [List.append_assoc]
    · rw [List.forall₂_map_right_iff, List.forall₂_same]
      rintro ⟨i, j⟩ hij
      obtain ⟨hi, hj⟩ := hg.ends _ hij
      refine ⟨g.nodes[i], g.nodes[j], List.getElem?_eq_getElem hi, List.getElem?_eq_getElem hj, ?_⟩
      have h1 : g.getNode i = some g.nodes[i] := List.getElem?_eq_getElem hi
      have h2 : g.getNode j = some g.nodes[j] := List.getElem?_eq_getElem hj
      exact ⟨arrowPoints g.nodes[i].location g.nodes[j].location, by simp only [debugEdge, h1, h2]; rfl, fun d hd => isArrow_arrowPoints hd⟩

/-- **C59.** For a module the graph is well-formed and every edge has a direction, so every arrow is as `IsArrow` says;
the debug drawing is that of the drawn document. -/
theorem C59_module {q : Queue} {QI : List Entry → Prop} (hq : q.Lawful QI) (m : Module)
    (hsize : (placeNodes m.intoMir).2.size.height ≤ 1000000000) :
    ∃ doc' g', drawEdgePath q (laidOut m.intoMir) .new = .ok (doc', g') ∧ WellFormed g' ∧
      (∀ e ∈ g'.edges, ∃ n k d, g'.nodes[e.1]? = some n ∧ g'.nodes[e.2]? = some k ∧ Towards d n.location k.location) ∧
      drawModuleDebug q m = renderWith (some (placeNodes m.intoMir).2) (some g') doc' ∧
      drawModule q m = renderWith (some (placeNodes m.intoMir).2) none doc' := by
  have hd := drawable_intoMir m
  obtain ⟨g, es, hg, hdraw, -⟩ := draw_ok hq (scene_laidOut hd hsize) (edgeEnds_laidOut hd)
  refine ⟨_, _, hdraw, connect_wellFormed _ _ hg.wf, ?_, ?_, ?_⟩
  · intro e he
    obtain ⟨n, k, d, h1, h2, h3⟩ := hg.joined_linked (a := e.1) (b := e.2) (Or.inl he)
    refine ⟨n, k, d, ?_, ?_, h3.1⟩
    · rw [(connect_nodes _ _).1]; exact h1
    · rw [(connect_nodes _ _).1]; exact h2
  · show (match drawEdgePath q (laidOut m.intoMir) .new with
      | .error p => _
      | .ok (doc, g) => _) = _
    rw [hdraw]
    rfl
  · rw [(C59_debug_only_adds _ .new _).2.2, drawModule_eq, hdraw]

/-! A module meeting the hypotheses whose debug drawing shows edges, nodes, paths and tables. -/
set_option maxRecDepth 100000 in
example : (placeNodes threeTables.intoMir).2.size.height ≤ 1000000000 ∧
    (match drawEdgePath BinHeap.queue (laidOut threeTables.intoMir) .new with
      | .ok (doc, g) => (g.edges.length, g.nodes.length, (doc.edges.flatMap debugPath).length, doc.bodyChildren.length)
      | .error _ => (0, 0, 0, 0)) = (25, 22, 6, 3) := by
  decide +kernel

/-! ## The notebook output -/

/-- **C60.** The notebook output of a document: drawing panics if and only if rendering fails; otherwise the output is a
first line, the text of the drawing and a last line, and the text is found again by cutting these off, whatever it
contains. -/
theorem C60_notebook (text : Element → Str) (doc : Document) (v : Option Rect) :
    (∀ e, drawErd text doc v = .error e ↔ render v doc = .error e) ∧
    (∀ el, render v doc = .ok el → drawErd text doc v = .ok (text el)) ∧
    ∀ svg : Str, c!"EVCXR_BEGIN_CONTENT image/svg+xml\n" <+: evcxrDisplay svg ∧
      c!"\nEVCXR_END_CONTENT\n" <:+ evcxrDisplay svg ∧
      ((evcxrDisplay svg).drop (c!"EVCXR_BEGIN_CONTENT image/svg+xml\n").length).take
        ((evcxrDisplay svg).length - (c!"EVCXR_BEGIN_CONTENT image/svg+xml\n").length - (c!"\nEVCXR_END_CONTENT\n").length)
          = svg := by
  have h0 : renderWith v none doc = render v doc := (C59_debug_only_adds v .new doc).2.2
  refine ⟨?_, ?_, ?_⟩
  · intro e
    unfold drawErd
    rw [h0]
    cases render v doc <;> simp
  · intro el h
    unfold drawErd
    rw [h0, h]
  · intro svg
    have e : evcxrDisplay svg = c!"EVCXR_BEGIN_CONTENT image/svg+xml\n" ++ (svg ++ c!"\nEVCXR_END_CONTENT\n") := by
      unfold evcxrDisplay
      rw [List.append_assoc, List.append_assoc]
      rfl
    rw [e]
    refine ⟨List.prefix_append _ _, ⟨c!"EVCXR_BEGIN_CONTENT image/svg+xml\n" ++ svg, by rw [List.append_assoc]⟩, ?_⟩
    rw [List.drop_left, List.length_append, Nat.add_sub_cancel_left, List.length_append, Nat.add_sub_cancel, List.take_left]

example : evcxrDisplay c!"<svg/>" = c!"EVCXR_BEGIN_CONTENT image/svg+xml\n<svg/>\nEVCXR_END_CONTENT\n" := rfl
example : ∃ s, drawErd (fun _ => c!"<svg/>") (Document.mk [] [] 0) none = .ok s := ⟨_, rfl⟩

end Seiren
