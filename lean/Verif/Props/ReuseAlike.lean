import Verif.Props.Reuse
import Verif.Props.RelationOrder
/-! # C39: engines that have drawn modules of the same shape -/

namespace Seiren
open Spec

theorem addTerminalPorts_roads {g g0 : RouteGraph} (hg : WellFormed g) (ps : List TerminalPort)
    (h : ∀ p ∈ ps, ∃ i, g0.getTerminalPort p.id = some i ∧ g.nodes[i]? = some ⟨p.location, some p.orientation⟩) :
    ∃ g', addTerminalPorts g ps = .ok g' ∧ SameRoads g' g ∧
      ∀ id, g'.getTerminalPort id = if id ∈ ps.map (·.id) then g0.getTerminalPort id else g.getTerminalPort id := by
  induction ps generalizing g with
  | nil => exact ⟨g, rfl, ⟨rfl, rfl⟩, fun _ => by simp⟩
  | cons p ps ih =>
    obtain ⟨i, h1, h2⟩ := h p (by simp)
    obtain ⟨g', h3, h4, h5⟩ := ih (g := { g with terminalPorts := (p.id, i) :: g.terminalPorts })
      ⟨hg.locations, hg.ends, hg.simple⟩ (fun r hr => h r (by simp [hr]))
    refine ⟨g', ?_, h4, ?_⟩
    · simp only [addTerminalPorts, RouteGraph.addTerminalPort, addNodeAt_there hg h2]
      exact h3
    · intro id
      rw [h5]
      by_cases hid : id ∈ ps.map (·.id)
      · rw [if_pos hid, if_pos (by simp at hid ⊢; exact .inr hid)]
      · rw [if_neg hid]
        by_cases hp : id = p.id
        · subst hp
          rw [if_pos (by simp), h1]
          simp [RouteGraph.getTerminalPort]
        · rw [if_neg (by simp at hid ⊢; exact ⟨hp, hid⟩)]
          simp only [RouteGraph.getTerminalPort]
          rw [List.lookup_cons, beq_eq_false_iff_ne.mpr hp]

/-- Building the graph of a document on a graph with the same nodes and edges. -/
theorem rebuild_roads {doc : Document} {g : RouteGraph} (hg : SceneGraph doc g) {g1 : RouteGraph}
    (h : SameRoads g1 (connectNearest doc g)) :
    ∃ g2, buildRouteGraph doc g1 = .ok g2 ∧ SameRoads g2 (connectNearest doc g) ∧
      ∀ p ∈ portsOfEdges doc, g2.getTerminalPort p.id = (connectNearest doc g).getTerminalPort p.id := by
  have hn : g1.nodes = g.nodes := h.1.trans (connect_nodes doc g).1
  have hwf : WellFormed g1 := by
    have := connect_wellFormed doc g hg.wf
    exact ⟨by rw [h.1]; exact this.locations, by rw [h.1, h.2]; exact this.ends, by rw [h.2]; exact this.simple⟩
  have h1 := addJunctions_there hwf (junctionsOf doc) (by
    intro j hj
    rw [hn, hg.nodes]
    exact Or.inl ⟨j, hj, rfl⟩)
  obtain ⟨g2, h2, h3, h5⟩ := addTerminalPorts_roads (g0 := g) hwf (portsOfEdges doc) (by
    intro p hp
    obtain ⟨i, hi, hi'⟩ := hg.ports p hp
    exact ⟨i, hi, by rw [hn]; exact hi'⟩)
  have h4 : connectNearest doc g2 = g2 := by
    apply connect_there
    intro a b hab
    have e : g2.nodes = g.nodes := h3.1.trans hn
    rw [chosen_same e] at hab
    have : Joined (connectNearest doc g) a b := (joined_connect doc g a b).mpr (Or.inr (Or.inl hab))
    unfold Joined at this ⊢
    rw [h3.2, h.2]
    exact this
  refine ⟨g2, ?_, ⟨h3.1.trans h.1, h3.2.trans h.2⟩, ?_⟩
  · unfold buildRouteGraph
    unfold junctionsOf at h1
    unfold portsOfEdges at h2
    simp only [h1, h2, h4]
  · intro p hp
    rw [h5, if_pos (List.mem_map_of_mem hp)]
    simp only [RouteGraph.getTerminalPort, (connect_nodes doc g).2]

theorem collectPaths_roads (q : Queue) (doc : Document) {g g' : RouteGraph} (h : SameRoads g g')
    (hp : ∀ p ∈ portsOfEdges doc, g.getTerminalPort p.id = g'.getTerminalPort p.id) (es : List EdgeData) (hes : ∀ e ∈ es, e ∈ doc.edges) :
    collectPaths q doc g es = collectPaths q doc g' es := by
  induction es with
  | nil => rfl
  | cons e es ih =>
    have : findShortestEdgesPath q doc g e = findShortestEdgesPath q doc g' e := by
      unfold findShortestEdgesPath
      cases hs : doc.getNode e.sourceId with
      | none => rfl
      | some s =>
        cases ht : doc.getNode e.targetId with
        | none => rfl
        | some t =>
          have hmem : ∀ p, p ∈ s.terminalPorts ∨ p ∈ t.terminalPorts → p ∈ portsOfEdges doc :=
            fun p h => EdgeEnds.mem_ports (hes e (by simp)) hs ht h
          have hl : List.Forall₂ (fun x y => g.getTerminalPort x.1.id = g'.getTerminalPort y.1.id ∧
              g.getTerminalPort x.2.id = g'.getTerminalPort y.2.id) (portPairs s t) (portPairs s t) := by
            rw [List.forall₂_same]
            rintro ⟨a, b⟩ hab
            simp only [portPairs, List.mem_flatMap, List.mem_map, Prod.mk.injEq] at hab
            obtain ⟨a', ha, b', hb, rfl, rfl⟩ := hab
            exact ⟨hp _ (hmem _ (.inl ha)), hp _ (hmem _ (.inr hb))⟩
          simp only [h.best q hl, h.locations]
    simp only [collectPaths, this, ih (fun x hx => hes x (by simp [hx]))]

/-- Modules whose tables have the same numbers of lines and whose relations mention the same tables and columns first in the same
order. -/
def Spec.SameShape (a b : Module) : Prop :=
  lineNumbers (definitions a.entries) = lineNumbers (definitions b.entries) ∧
    mentions (connections [] a.entries) = mentions (connections [] b.entries)

/-- The states of an engine that has drawn modules of the same shape as `m`, one or more, and no others. -/
inductive Spec.DrewAlike (q : Queue) (m : Module) : RouteGraph → Prop
  | once {a d g} : SameShape a m → drawEdgePath q (laidOut a.intoMir) .new = .ok (d, g) → DrewAlike q m g
  | again {a d g g'} : DrewAlike q m g → SameShape a m → drawEdgePath q (laidOut a.intoMir) g = .ok (d, g') → DrewAlike q m g'

/-- **C39, for modules of the same shape.** The full property is false (`C39_refuted`).  What holds: an engine that has drawn any
modules whose tables have the same numbers of lines, and whose relations mention the same tables and columns first in the
same order, draws the next such module without a panic and with the same result as a new engine.  (Names, types and keys may differ,
and relations between things that were mentioned before may be added or removed.) -/
theorem C39_same_shape_partial {q : Queue} {QI : List Entry → Prop} (hq : q.Lawful QI) (m : Module)
    (hsize : (placeNodes m.intoMir).2.size.height ≤ 1000000000) (g : RouteGraph) (h : DrewAlike q m g) :
    ∃ d g1 g2, drawEdgePath q (laidOut m.intoMir) .new = .ok (d, g1) ∧ drawEdgePath q (laidOut m.intoMir) g = .ok (d, g2) ∧
      g2.nodes = g1.nodes ∧ g2.edges = g1.edges := by
  have height : ∀ a, SameShape a m → (placeNodes a.intoMir).2.size.height ≤ 1000000000 := by
    intro a ha
    by_cases hne : definitions a.entries = []
    · exact le_trans (C23_view_box_refuted a hne).le (by norm_num)
    · have hl : (definitions a.entries).length = (definitions m.entries).length := by
        have := congrArg List.length ha.1
        simpa [lineNumbers] using this
      have hta : (tables a.intoMir).length = (definitions a.entries).length := by rw [tables_intoMir, recordIds_length]
      have htm : (tables m.intoMir).length = (definitions m.entries).length := by rw [tables_intoMir, recordIds_length]
      have hpos := List.length_pos_iff.mpr hne
      have e1 := placed_viewBox (drawable_intoMir a).tabular (List.length_pos_iff.mp (by omega))
      have e2 := placed_viewBox (drawable_intoMir m).tabular (List.length_pos_iff.mp (by omega))
      have hlc : lineCounts a.intoMir = lineCounts m.intoMir := by rw [lineCounts_intoMir, lineCounts_intoMir]; exact ha.1
      simp only at e1 e2
      rw [e2] at hsize
      rw [e1, hlc, hta, hl, ← htm]
      exact hsize
  obtain ⟨g0, es, hg, hdraw, -⟩ := draw_ok hq (scene_laidOut (drawable_intoMir m) hsize) (edgeEnds_laidOut (drawable_intoMir m))
  -- drawing a module of the same shape
  have step : ∀ a, SameShape a m → ∀ g1, SameRoads g1 (connectNearest (laidOut m.intoMir) g0) →
      ∃ d ga g2, drawEdgePath q (laidOut a.intoMir) .new = .ok (d, ga) ∧ drawEdgePath q (laidOut a.intoMir) g1 = .ok (d, g2) ∧
        SameRoads ga (connectNearest (laidOut m.intoMir) g0) ∧ SameRoads g2 (connectNearest (laidOut m.intoMir) g0) := by
    intro a ha g1 h1
    obtain ⟨ga, esa, hga, hdrawa, -⟩ := draw_ok hq (scene_laidOut (drawable_intoMir a) (height a ha)) (edgeEnds_laidOut (drawable_intoMir a))
    have hroads := same_roads hq a m (height a ha) hsize ha.1 ha.2 _ _ hga hg hdrawa hdraw
    have h1a : SameRoads g1 (connectNearest (laidOut a.intoMir) ga) := ⟨h1.1.trans hroads.1.symm, h1.2.trans hroads.2.symm⟩
    obtain ⟨g2, h2, h3, h4⟩ := rebuild_roads hga h1a
    refine ⟨_, _, g2, hdrawa, ?_, hroads, ⟨h3.1.trans hroads.1, h3.2.trans hroads.2⟩⟩
    unfold drawEdgePath at hdrawa ⊢
    rw [hga.built] at hdrawa
    rw [h2]
    simp only [collectPaths_roads q (laidOut a.intoMir) h3 h4 _ (fun e he => he)] at hdrawa ⊢
    cases hc : collectPaths q (laidOut a.intoMir) (connectNearest (laidOut a.intoMir) ga) (laidOut a.intoMir).edges with
    | error e => rw [hc] at hdrawa; cases hdrawa
    | ok paths =>
      rw [hc] at hdrawa
      simp only at hdrawa ⊢
      cases hass : assignPaths (laidOut a.intoMir).edges paths with
      | error e => rw [hass] at hdrawa; cases hdrawa
      | ok edges =>
        rw [hass] at hdrawa
        simp only [Except.ok.injEq, Prod.mk.injEq, Document.mk.injEq, true_and, and_true] at hdrawa ⊢
        exact hdrawa
  have hsame : SameRoads g (connectNearest (laidOut m.intoMir) g0) := by
    induction h with
    | once ha h1 =>
      obtain ⟨d, ga, g2, k1, -, k3, -⟩ := step _ ha _ ⟨rfl, rfl⟩
      rw [k1] at h1
      simp only [Except.ok.injEq, Prod.mk.injEq] at h1
      rw [← h1.2]
      exact k3
    | again _ ha h1 ih =>
      obtain ⟨d, ga, g2, -, k2, -, k4⟩ := step _ ha _ ih
      rw [k2] at h1
      simp only [Except.ok.injEq, Prod.mk.injEq] at h1
      rw [← h1.2]
      exact k4
  obtain ⟨d, ga, g2, k1, k2, k3, k4⟩ := step m ⟨rfl, rfl⟩ g hsame
  exact ⟨d, ga, g2, k1, k2, k4.1.trans k3.1.symm, k4.2.trans k3.2.symm⟩

/-! Modules of the same shape with different names, types, keys and numbers of relations, and an engine that has drawn the first. -/

/-- Two tables with a relation. -/
def shapeFirst : Module :=
  ⟨none, [.definition ⟨c!"a", [⟨c!"x", .int, some .primaryKey⟩, ⟨c!"y", .text, none⟩]⟩, .definition ⟨c!"b", [⟨c!"z", .int, none⟩]⟩,
    .relation ⟨.field c!"a" c!"y", .field c!"b" c!"z"⟩]⟩

/-- The same shape. -/
def shapeSecond : Module :=
  ⟨some c!"n", [.definition ⟨c!"c", [⟨c!"u", .text, none⟩, ⟨c!"v", .text, some .foreignKey⟩]⟩, .definition ⟨c!"d", [⟨c!"w", .uuid, none⟩]⟩,
    .relation ⟨.field c!"c" c!"v", .field c!"d" c!"w"⟩, .relation ⟨.field c!"d" c!"w", .field c!"c" c!"v"⟩]⟩

set_option maxRecDepth 100000 in
example : SameShape shapeFirst shapeSecond ∧ (∃ g, DrewAlike BinHeap.queue shapeSecond g) ∧
    pathsOf (drawAfter shapeFirst shapeSecond) = pathsOf (drawEdgePath BinHeap.queue (laidOut shapeSecond.intoMir) .new) ∧
    (pathsOf (drawAfter shapeFirst shapeSecond)).isSome = true := by
  have hs : SameShape shapeFirst shapeSecond := by
    constructor <;> decide +kernel
  refine ⟨hs, ?_, by decide +kernel, by decide +kernel⟩
  cases hd : drawEdgePath BinHeap.queue (laidOut shapeFirst.intoMir) .new with
  | ok r => exact ⟨r.2, .once hs hd⟩
  | error e =>
    have h : (pathsOf (drawEdgePath BinHeap.queue (laidOut shapeFirst.intoMir) .new)).isSome = true := by decide +kernel
    rw [hd] at h
    cases h

end Seiren
