import Verif.Proofs.Walks
import Verif.Props.Geometry
/-! # C32–C38: routing

The theorems are stated for `Drawable` documents (tables with lines, at least a header line each, no ports yet, edges between
tables or lines); `drawable_intoMir` shows that the document of every module is one.  `laidOut doc` is the document after
`place_nodes` and `place_terminal_ports`.  They hold for every lawful priority queue; std's heap is one (C31). -/

namespace Seiren
open Spec

/-! ## Every module gives a drawable document -/

theorem nodeOf_block {doc : Document} {r : NodeRef} {i : NodeId} (h : nodeOf doc r = some i) :
    i ∈ tables doc ++ (tables doc).flatMap (childrenOf doc) := by
  unfold nodeOf at h
  cases hb : doc.nodes[doc.bodyId]? with
  | none => rw [hb] at h; cases h
  | some b =>
    rw [hb] at h
    have ht : tables doc = b.children := by simp only [tables, childrenOf, hb]
    rw [List.mem_append, List.mem_flatMap, ht]
    cases r with
    | table k => left; exact List.mem_of_getElem? h
    | column k j =>
      right
      simp only at h
      cases hk : b.children[k]? with
      | none => rw [hk] at h; cases h
      | some t =>
        rw [hk] at h
        simp only at h
        cases hn : doc.nodes[t]? with
        | none => rw [hn] at h; cases h
        | some n =>
          rw [hn] at h
          refine ⟨t, List.mem_of_getElem? hk, ?_⟩
          simp only [childrenOf, hn]
          exact List.mem_of_getElem? h

/-- The document of every module is drawable. -/
theorem drawable_intoMir (m : Module) : Drawable m.intoMir := by
  refine ⟨tabular_intoMir m, noPorts_intoMir m, ?_, ?_⟩
  · intro t ht h
    have h1 : (childrenOf m.intoMir t).length ∈ lineCounts m.intoMir := List.mem_map.mpr ⟨t, ht, rfl⟩
    rw [lineCounts_intoMir, List.mem_map] at h1
    obtain ⟨d, -, hd⟩ := h1
    rw [h] at hd
    simp at hd
  · intro e he
    have h1 : (some e.sourceId, some e.targetId) ∈ m.intoMir.edges.map (fun e => (some e.sourceId, some e.targetId)) :=
      List.mem_map.mpr ⟨e, he, rfl⟩
    rw [(C17_relations m).1, List.mem_map] at h1
    obtain ⟨c, -, hc⟩ := h1
    simp only [Prod.mk.injEq] at hc
    exact ⟨nodeOf_block hc.1, nodeOf_block hc.2⟩

/-! ## What was drawn -/

theorem drawn_edge {q : Queue} {QI : List Entry → Prop} (hq : q.Lawful QI) {doc : Document} (hd : Drawable doc)
    (hsize : (placeNodes doc).2.size.height ≤ 1000000000) {doc' : Document} {g' : RouteGraph}
    (h : drawEdgePath q (laidOut doc) .new = .ok (doc', g')) {e : EdgeData} (he : e ∈ doc'.edges) {ps : List Point}
    (hps : e.pathPoints = some ps) :
    ∃ g, SceneGraph (laidOut doc) g ∧ g' = connectNearest (laidOut doc) g ∧ Routed (laidOut doc) g' e ps ∧
      ∃ e0 ∈ doc.edges, e0.sourceId = e.sourceId ∧ e0.targetId = e.targetId := by
  obtain ⟨g, es, hg, hdraw, hf⟩ := draw_ok hq (scene_laidOut hd hsize) (edgeEnds_laidOut hd)
  rw [hdraw] at h
  simp only [Except.ok.injEq, Prod.mk.injEq] at h
  obtain ⟨rfl, rfl⟩ := h
  simp only at he
  obtain ⟨k, hk⟩ := List.getElem?_of_mem he
  obtain ⟨e0, he0, ps', rfl, hr⟩ : ∃ e0, e0 ∈ (laidOut doc).edges ∧ ∃ ps', e = { e0 with pathPoints := some ps' } ∧
      Routed (laidOut doc) (connectNearest (laidOut doc) g) e0 ps' := by
    clear hk hps hdraw
    generalize (laidOut doc).edges = l at hf
    induction hf with
    | nil => cases he
    | cons h1 h2 ih =>
      rw [List.mem_cons] at he
      rcases he with rfl | he
      · obtain ⟨ps', h3, h4⟩ := h1
        exact ⟨_, by simp, ps', h3, h4⟩
      · obtain ⟨e0, h3, h4⟩ := ih he
        exact ⟨e0, by simp [h3], h4⟩
  simp only [Option.some.injEq] at hps
  subst hps
  rw [(laidOut_edges doc).1] at he0
  exact ⟨g, hg, rfl, ⟨hr.path⟩, e0, he0, rfl, rfl⟩

/-! ## C32 -/

/-- **C32.** For every drawable document of height at most 10⁹ (so that sums of two path costs fit in 32 bits) routing
does not panic.  It keeps the nodes, and the ends of the edges, and gives every edge a path. -/
theorem C32_routing_never_panics {q : Queue} {QI : List Entry → Prop} (hq : q.Lawful QI) (doc : Document) (hd : Drawable doc)
    (hsize : (placeNodes doc).2.size.height ≤ 1000000000) :
    ∃ doc' g', drawEdgePath q (laidOut doc) .new = .ok (doc', g') ∧
      doc'.nodes = (laidOut doc).nodes ∧ doc'.bodyId = doc.bodyId ∧
      doc'.edges.map (fun e => (e.sourceId, e.targetId)) = doc.edges.map (fun e => (e.sourceId, e.targetId)) ∧
      ∀ e ∈ doc'.edges, ∃ ps, e.pathPoints = some ps ∧ ps ≠ [] := by
  obtain ⟨g, es, hg, hdraw, hf⟩ := draw_ok hq (scene_laidOut hd hsize) (edgeEnds_laidOut hd)
  refine ⟨_, _, hdraw, rfl, (laidOut_edges doc).2, ?_, ?_⟩
  · rw [← (laidOut_edges doc).1]
    simp only
    clear hdraw
    generalize (laidOut doc).edges = l at hf
    induction hf with
    | nil => rfl
    | cons h1 h2 ih =>
      obtain ⟨ps, rfl, -⟩ := h1
      simp only [List.map_cons, ih]
  · intro e he
    simp only at he
    obtain ⟨ps, hps⟩ : ∃ ps, e.pathPoints = some ps := by
      clear hdraw
      generalize (laidOut doc).edges = l at hf
      induction hf with
      | nil => cases he
      | cons h1 h2 ih =>
        rw [List.mem_cons] at he
        rcases he with rfl | he
        · obtain ⟨ps, rfl, -⟩ := h1; exact ⟨ps, rfl⟩
        · exact ih he
    obtain ⟨g2, -, -, hr, -⟩ := drawn_edge hq hd hsize hdraw he hps
    obtain ⟨s, t, -, -, p, -, r, -, i, j, w, c, -, -, hw, -, hl, -⟩ := hr.path
    refine ⟨ps, hps, ?_⟩
    rintro rfl
    have := hl.length
    have hw0 := (walk_route hw).1
    cases w with
    | nil => cases hw0
    | cons x w => simp at this

/-- **C32** for modules and std's heap. -/
theorem C32_module (m : Module) (hsize : (placeNodes m.intoMir).2.size.height ≤ 1000000000) :
    ∃ doc' g', drawEdgePath BinHeap.queue (laidOut m.intoMir) .new = .ok (doc', g') ∧
      doc'.nodes = (laidOut m.intoMir).nodes ∧ doc'.edges.length = (connections [] m.entries).length ∧
      ∀ e ∈ doc'.edges, ∃ ps, e.pathPoints = some ps ∧ ps ≠ [] := by
  obtain ⟨doc', g', h1, h2, -, h3, h4⟩ := C32_routing_never_panics BinHeap.lawful m.intoMir (drawable_intoMir m) hsize
  refine ⟨doc', g', h1, h2, ?_, h4⟩
  have e1 := congrArg List.length h3
  have e2 := congrArg List.length (C17_relations m).1
  simp only [List.length_map] at e1 e2
  omega

/-- The example of the next theorems: two columns joined past a third table. -/
def threeTables : Module :=
  ⟨none, [.definition ⟨c!"a", [⟨c!"id", .int, none⟩]⟩, .definition ⟨c!"b", [⟨c!"x", .int, none⟩]⟩,
    .definition ⟨c!"c", [⟨c!"id", .int, none⟩, ⟨c!"y", .int, none⟩]⟩, .relation ⟨.field c!"a" c!"id", .field c!"c" c!"y"⟩]⟩

/-- The paths of a drawn document. -/
def pathsOf (r : Except Panic (Document × RouteGraph)) : Option (List (Option (List Point))) :=
  match r with
  | .ok (d, _) => some (d.edges.map (·.pathPoints))
  | .error _ => none

example : (placeNodes threeTables.intoMir).2.size.height = 205 ∧
    pathsOf (drawEdgePath BinHeap.queue (laidOut threeTables.intoMir) .new) =
      some [some [⟨350, 205/2⟩, ⟨390, 205/2⟩, ⟨390, 160⟩, ⟨770, 160⟩, ⟨770, 275/2⟩, ⟨810, 275/2⟩]] := by decide +kernel

/-! ## C33 -/

/-- **C33.** The path of an edge starts at a port of its source and ends at a port of its target. -/
theorem C33_paths_connect_ports {q : Queue} {QI : List Entry → Prop} (hq : q.Lawful QI) (doc : Document) (hd : Drawable doc)
    (hsize : (placeNodes doc).2.size.height ≤ 1000000000) (doc' : Document) (g' : RouteGraph)
    (h : drawEdgePath q (laidOut doc) .new = .ok (doc', g')) (e : EdgeData) (he : e ∈ doc'.edges) (ps : List Point)
    (hps : e.pathPoints = some ps) :
    ∃ a b o o', ps.head? = some a ∧ ps.getLast? = some b ∧ (a, o) ∈ portsOf (laidOut doc) e.sourceId ∧
      (b, o') ∈ portsOf (laidOut doc) e.targetId := by
  obtain ⟨g, -, -, hr, -⟩ := drawn_edge hq hd hsize h he hps
  obtain ⟨s, t, hs, ht, p, hp, r, hr', i, j, w, c, hi, hj, hw, -, hl, -⟩ := hr.path
  obtain ⟨h1, h2, -⟩ := walk_route hw
  refine ⟨p.location, r.location, p.orientation, r.orientation, ?_, ?_, mem_of_mem_view hs p hp, mem_of_mem_view ht r hr'⟩
  · cases hl with
    | nil => cases h1
    | cons h3 h4 =>
      simp only [List.head?_cons, Option.some.injEq] at h1 ⊢
      subst h1
      obtain ⟨n, hn, rfl⟩ := h3
      rw [hi] at hn; cases hn; rfl
  · have hlen := hl.length
    rw [List.getLast?_eq_getElem?] at h2 ⊢
    have hlt : w.length - 1 < w.length := (List.getElem?_eq_some_iff.mp h2).1
    obtain ⟨b, hb⟩ : ∃ b, ps[ps.length - 1]? = some b := ⟨_, List.getElem?_eq_getElem (by omega)⟩
    obtain ⟨x, n, hx, hn, hnb⟩ := hl.get _ _ hb
    rw [← hlen, h2] at hx
    cases hx
    rw [hj] at hn; cases hn
    rw [hb, ← hnb]

example : portsOf (laidOut threeTables.intoMir) 2 = [(⟨350, 205/2⟩, .right), (⟨200, 120⟩, .down), (⟨50, 205/2⟩, .left)] ∧
    portsOf (laidOut threeTables.intoMir) 9 = [(⟨1110, 275/2⟩, .right), (⟨960, 155⟩, .down), (⟨810, 275/2⟩, .left)] := by
  decide +kernel

/-! ## C34 -/

/-- Consecutive points of a path belong to joined nodes that allow the direction between them. -/
theorem segment_linked {doc : Document} {g : RouteGraph} (hg : SceneGraph doc g) {w : List RouteNodeId} {ps : List Point}
    (hl : Locations (connectNearest doc g) w ps) (hw : Route (connectNearest doc g) w) (k : Nat) (a b : Point)
    (ha : ps[k]? = some a) (hb : ps[k + 1]? = some b) :
    ∃ x y n m d, w[k]? = some x ∧ w[k + 1]? = some y ∧ g.nodes[x]? = some n ∧ g.nodes[y]? = some m ∧ n.location = a ∧
      m.location = b ∧ Linked d n m ∧ Joined (connectNearest doc g) x y := by
  obtain ⟨x, n, hx, hn, rfl⟩ := hl.get k a ha
  obtain ⟨y, m, hy, hm, rfl⟩ := hl.get (k + 1) b hb
  have hj := hw k x y hx hy
  obtain ⟨n', m', d, hn', hm', hlk⟩ := hg.joined_linked hj
  rw [(connect_nodes doc g).1] at hn hm
  rw [hn] at hn'; rw [hm] at hm'
  cases hn'; cases hm'
  exact ⟨x, y, n, m, d, hx, hy, hn, hm, rfl, rfl, hlk, hj⟩

/-- **C34.** Consecutive points of a path differ in exactly one coordinate. -/
theorem C34_paths_orthogonal {q : Queue} {QI : List Entry → Prop} (hq : q.Lawful QI) (doc : Document) (hd : Drawable doc)
    (hsize : (placeNodes doc).2.size.height ≤ 1000000000) (doc' : Document) (g' : RouteGraph)
    (h : drawEdgePath q (laidOut doc) .new = .ok (doc', g')) (e : EdgeData) (he : e ∈ doc'.edges) (ps : List Point)
    (hps : e.pathPoints = some ps) (k : Nat) (a b : Point) (ha : ps[k]? = some a) (hb : ps[k + 1]? = some b) :
    (a.x = b.x ∧ a.y ≠ b.y) ∨ (a.x ≠ b.x ∧ a.y = b.y) := by
  obtain ⟨g, hg, rfl, hr, -⟩ := drawn_edge hq hd hsize h he hps
  obtain ⟨s, t, -, -, p, -, r, -, i, j, w, c, -, -, hw, -, hl, -⟩ := hr.path
  obtain ⟨x, y, n, m, d, -, -, -, -, rfl, rfl, ⟨ht, -⟩, -⟩ := segment_linked hg hl (walk_route hw).2.2 k a b ha hb
  cases d <;> simp only [Towards] at ht
  · exact Or.inl ⟨ht.1.symm, ne_of_gt ht.2⟩
  · exact Or.inl ⟨ht.1.symm, ne_of_lt ht.2⟩
  · exact Or.inr ⟨ne_of_gt ht.2, ht.1.symm⟩
  · exact Or.inr ⟨ne_of_lt ht.2, ht.1.symm⟩

/-! ## C35 -/

/-- The table a node belongs to: the table itself or the table of which it is a line. -/
def Spec.TableOf (doc : Document) (i t : NodeId) : Prop := t ∈ tables doc ∧ (i = t ∨ i ∈ childrenOf doc t)

/-- A segment that leaves a port of a table outward does not enter the interior of the table. -/
theorem outward_free {ns : List Nat} {k n : Nat} {o : Orientation} {p b : Point} (hp : PortAt ns k n o p) (hb : Towards o p b) :
    ¬ Crosses (tableRect ns k n) p b := by
  rintro ⟨t, h0, h1, hx1, hx2, hy1, hy2⟩
  simp only [lerp, tableRect] at hx1 hx2 hy1 hy2
  change 50 + 380 * col k < _ at hx1
  change _ < 50 + 380 * col k + 300 at hx2
  change _ < bot ns k n at hy2
  cases o <;> simp only [PortAt] at hp <;> simp only [Towards] at hb
  · have := mul_nonneg h0 (sub_nonneg.mpr (le_of_lt hb.2)); linarith
  · have := mul_nonneg h0 (sub_nonneg.mpr (le_of_lt hb.2)); linarith
  · have := mul_nonneg h0 (sub_nonneg.mpr (le_of_lt hb.2)); linarith
  · have := mul_nonneg h0 (sub_nonneg.mpr (le_of_lt hb.2)); linarith

/-- The table of a node is unique, and its rectangle is the expected one. -/
theorem tableOf_port {doc : Document} (hd : Drawable doc) {i t : NodeId} (ht : TableOf doc i t) {n : NodeData}
    (hn : (laidOut doc).nodes[i]? = some n) {p : TerminalPort} (hp : p ∈ n.terminalPorts) :
    ∃ k : Nat, (tables doc)[k]? = some t ∧
      rectOf (laidOut doc) t = some (tableRect (lineCounts doc) k (childrenOf doc t).length) ∧
      PortAt (lineCounts doc) k (childrenOf doc t).length p.orientation p.location := by
  obtain ⟨ht, hi⟩ := ht
  have hmem : i ∈ tables doc ++ (tables doc).flatMap (childrenOf doc) := by
    rw [List.mem_append, List.mem_flatMap]
    rcases hi with rfl | hi
    · exact Or.inl ht
    · exact Or.inr ⟨t, ht, hi⟩
  obtain ⟨k, t', hk, hit, hpa⟩ := ports_at hd hmem hn
  have htt : t = t' := by
    have hnd := hd.tabular.nodup
    rw [List.nodup_append] at hnd
    obtain ⟨-, h2, h3⟩ := hnd
    have ht' := List.mem_of_getElem? hk
    rcases hi with rfl | hi <;> rcases hit with rfl | hit
    · rfl
    · exact absurd rfl (h3 i ht i (List.mem_flatMap.mpr ⟨t', ht', hit⟩))
    · exact absurd rfl (h3 i ht' i (List.mem_flatMap.mpr ⟨t, ht, hi⟩))
    · rw [List.nodup_flatMap] at h2
      by_contra hne
      have hpw := h2.2
      obtain ⟨k1, hk1⟩ := List.getElem?_of_mem ht
      have hne' : k1 ≠ k := by
        rintro rfl; rw [hk] at hk1; exact hne (Option.some.inj hk1).symm
      rw [List.pairwise_iff_getElem] at hpw
      obtain ⟨e1, e1'⟩ := List.getElem?_eq_some_iff.mp hk1
      obtain ⟨e2, e2'⟩ := List.getElem?_eq_some_iff.mp hk
      rcases Nat.lt_or_gt_of_ne hne' with hlt | hlt
      · have := hpw k1 k e1 e2 hlt
        rw [e1', e2'] at this
        exact this hi hit
      · have := hpw k k1 e2 e1 hlt
        rw [e1', e2'] at this
        exact this hit hi
  subst htt
  exact ⟨k, hk, by rw [rectOf_laidOut, rectOf_table hd.tabular k t hk], hpa p hp⟩

/-- Ports at the same place belong to the same table. -/
theorem same_table {ns : List Nat} {doc : Document} (h : Scene ns doc) {k n k' n' : Nat} {o o' : Orientation} {p : Point}
    (hk : ns[k]? = some n) (hk' : ns[k']? = some n') (hp : PortAt ns k n o p) (hp' : PortAt ns k' n' o' p) : k = k' := by
  obtain ⟨h1, h2, h3, h4⟩ := h.port_on_table hk hp
  obtain ⟨g1, g2, g3, g4⟩ := h.port_on_table hk' hp'
  have hc : k % 3 = k' % 3 := by
    rcases col_cases k with ⟨e, hc⟩ | ⟨e, hc⟩ | ⟨e, hc⟩ <;> rcases col_cases k' with ⟨e', hc'⟩ | ⟨e', hc'⟩ | ⟨e', hc'⟩ <;>
      simp only [hc, hc'] at h1 h2 g1 g2 <;> first | (exfalso; linarith) | (rw [e, e'])
  rcases column_sep ns hk hk' hc with ⟨rfl, -⟩ | hs | hs
  · rfl
  · linarith
  · linarith

/-- **C35.** If the ends of an edge are in different tables, its path has at least two points.  The first segment leaves
its port in the port's orientation, the last segment, read backwards, leaves the final port in that port's orientation,
and neither enters the interior of the port's own table. -/
theorem C35_paths_leave_outward {q : Queue} {QI : List Entry → Prop} (hq : q.Lawful QI) (doc : Document) (hd : Drawable doc)
    (hsize : (placeNodes doc).2.size.height ≤ 1000000000) (doc' : Document) (g' : RouteGraph)
    (h : drawEdgePath q (laidOut doc) .new = .ok (doc', g')) (e : EdgeData) (he : e ∈ doc'.edges) (ps : List Point)
    (hps : e.pathPoints = some ps) (t u : NodeId) (ht : TableOf doc e.sourceId t) (hu : TableOf doc e.targetId u) :
    (t ≠ u → 2 ≤ ps.length) ∧
    (∀ a b, ps[0]? = some a → ps[1]? = some b →
      (∃ o, (a, o) ∈ portsOf (laidOut doc) e.sourceId ∧ Towards o a b) ∧
      ∀ r, rectOf (laidOut doc) t = some r → ¬ Crosses r a b) ∧
    (∀ a b, ps[ps.length - 1]? = some a → 2 ≤ ps.length → ps[ps.length - 2]? = some b →
      (∃ o, (a, o) ∈ portsOf (laidOut doc) e.targetId ∧ Towards o a b) ∧
      ∀ r, rectOf (laidOut doc) u = some r → ¬ Crosses r a b) := by
  have hsc := scene_laidOut hd hsize
  obtain ⟨g, hg, rfl, hr, -⟩ := drawn_edge hq hd hsize h he hps
  obtain ⟨s, s', hs, hs', p, hp, r, hr', i, j, w, c, hi, hj, hw, -, hl, -⟩ := hr.path
  obtain ⟨h1, h2, h3⟩ := walk_route hw
  have hlen := hl.length
  obtain ⟨k, hkt, hrect, hpa⟩ := tableOf_port hd ht hs hp
  obtain ⟨k', hku, hrect', hra⟩ := tableOf_port hd hu hs' hr'
  refine ⟨?_, ?_, ?_⟩
  · intro hne
    by_contra hlt
    have hpos : 0 < w.length := by
      cases w with
      | nil => cases h1
      | cons x w => simp
    have hone : w.length = 1 := by omega
    have hij : i = j := by
      cases w with
      | nil => cases h1
      | cons x w =>
        cases w with
        | nil =>
          simp only [List.head?_cons, Option.some.injEq, List.getLast?_singleton] at h1 h2
          rw [← h1, ← h2]
        | cons y w => simp at hone
    subst hij
    rw [hi] at hj
    simp only [Option.some.injEq, RouteNodeData.mk.injEq] at hj
    rw [← hj.1] at hra
    have hkk := same_table hsc (by simp [lineCounts, hkt]) (by simp [lineCounts, hku]) hpa hra
    subst hkk
    rw [hkt] at hku
    exact hne (Option.some.inj hku)
  · intro a b ha hb
    obtain ⟨x, y, n, m, d, hx, -, hn, -, rfl, rfl, hlk, -⟩ := segment_linked hg hl h3 0 a b ha hb
    have hxi : x = i := by
      rw [List.head?_eq_getElem?, hx] at h1; exact Option.some.inj h1
    subst hxi
    rw [(connect_nodes _ g).1, hn] at hi
    cases hi
    have hd' := connectable_some rfl hlk.2.1
    subst hd'
    refine ⟨⟨p.orientation, mem_of_mem_view hs p hp, hlk.1⟩, ?_⟩
    intro r0 hr0
    rw [hrect] at hr0
    cases hr0
    exact outward_free hpa hlk.1
  · intro a b ha hlen2 hb
    have hb' : ps[ps.length - 2]? = some b := hb
    have ha' : ps[ps.length - 2 + 1]? = some a := by rw [show ps.length - 2 + 1 = ps.length - 1 by omega]; exact ha
    obtain ⟨y, x, m, n, d, -, hx, -, hn, rfl, rfl, hlk, -⟩ := segment_linked hg hl h3 _ b a hb' ha'
    have hxj : x = j := by
      rw [List.getLast?_eq_getElem?, show w.length - 1 = ps.length - 2 + 1 by omega, hx] at h2
      exact Option.some.inj h2
    subst hxj
    rw [(connect_nodes _ g).1, hn] at hj
    cases hj
    have hlk' := hlk.symm
    have hd' := connectable_some rfl hlk'.2.1
    rw [← hd'] at hlk'
    refine ⟨⟨r.orientation, mem_of_mem_view hs' r hr', hlk'.1⟩, ?_⟩
    intro r0 hr0
    rw [hrect'] at hr0
    cases hr0
    exact outward_free hra hlk'.1

example : TableOf threeTables.intoMir 2 3 ∧ TableOf threeTables.intoMir 9 10 := by
  unfold TableOf tables childrenOf; decide +kernel

/-! ## C36 -/

/-- **C36.** The path of an edge runs along edges of the route graph, and its cost (the sum of the lengths of its segments,
each rounded down) is least among all routes in the graph from any port of the source to any port of the target. -/
theorem C36_paths_shortest {q : Queue} {QI : List Entry → Prop} (hq : q.Lawful QI) (doc : Document) (hd : Drawable doc)
    (hsize : (placeNodes doc).2.size.height ≤ 1000000000) (doc' : Document) (g' : RouteGraph)
    (h : drawEdgePath q (laidOut doc) .new = .ok (doc', g')) (e : EdgeData) (he : e ∈ doc'.edges) (ps : List Point)
    (hps : e.pathPoints = some ps) :
    (∃ w, Route g' w ∧ w.Nodup ∧ Locations g' w ps) ∧
    ∀ (w' : List RouteNodeId) (ps' : List Point) (a b : Point) (o o' : Orientation), Route g' w' → Locations g' w' ps' →
      ps'.head? = some a → ps'.getLast? = some b → (a, o) ∈ portsOf (laidOut doc) e.sourceId →
      (b, o') ∈ portsOf (laidOut doc) e.targetId → routeCost ps ≤ routeCost ps' := by
  have hsc := scene_laidOut hd hsize
  obtain ⟨g, hg, rfl, hr, -⟩ := drawn_edge hq hd hsize h he hps
  obtain ⟨g0, hg0, -, hr0, e0, he0, hs0, ht0⟩ := drawn_edge hq hd hsize h he hps
  obtain ⟨s, s', hs, hs', p, hp, r, hr', i, j, w, c, hi, hj, hw, hnd, hl, hmin, -⟩ := hr.path
  have hcost : ∀ x y n m, Joined (connectNearest (laidOut doc) g) x y → (connectNearest (laidOut doc) g).nodes[x]? = some n →
      (connectNearest (laidOut doc) g).nodes[y]? = some m →
      (edgeCost (connectNearest (laidOut doc) g) x y : Int) = segmentCost n.location m.location :=
    fun x y n m hj hn hm => hsc.edge_cost hg hj hn hm
  have hwf := connect_wellFormed (laidOut doc) g hg.wf
  refine ⟨⟨w, (walk_route hw).2.2, hnd, hl⟩, ?_⟩
  intro w' ps' a b o o' hroute hloc hha hhb hpa hpb
  rw [← walk_cost hcost hw hl]
  -- the ends of the other route
  simp only [portsOf, hs, List.mem_map, Prod.mk.injEq] at hpa
  simp only [portsOf, hs', List.mem_map, Prod.mk.injEq] at hpb
  obtain ⟨p', hp', rfl, rfl⟩ := hpa
  obtain ⟨r', hr'', rfl, rfl⟩ := hpb
  have hmem : e0 ∈ (laidOut doc).edges := by rw [(laidOut_edges doc).1]; exact he0
  rw [← hs0] at hs
  rw [← ht0] at hs'
  obtain ⟨i', hi', hin⟩ := hg.ports p' (EdgeEnds.mem_ports hmem hs hs' (Or.inl hp'))
  obtain ⟨j', hj', hjn⟩ := hg.ports r' (EdgeEnds.mem_ports hmem hs hs' (Or.inr hr''))
  rw [← (connect_nodes (laidOut doc) g).1] at hin hjn
  have hlen := hloc.length
  have hwi : w'.head? = some i' := by
    rw [List.head?_eq_getElem?] at hha ⊢
    obtain ⟨x, n, hx, hn, hnl⟩ := hloc.get _ _ hha
    rw [hx, node_unique hwf hn hin hnl]
  have hwj : w'.getLast? = some j' := by
    rw [List.getLast?_eq_getElem?] at hhb ⊢
    obtain ⟨x, n, hx, hn, hnl⟩ := hloc.get _ _ hhb
    rw [hlen, hx, node_unique hwf hn hjn hnl]
  obtain ⟨c', hw'⟩ := route_walk (edgeCost (connectNearest (laidOut doc) g)) w' hwi hwj hroute
  rw [← walk_cost hcost hw' hloc]
  exact_mod_cast hmin p' hp' r' hr'' i' j' hin hjn w' c' hw'

/-- All pairs of ends, the first end changing slowest. -/
def Spec.endPairs (A B : List (Point × Orientation)) : List ((Point × Orientation) × (Point × Orientation)) :=
  A.flatMap fun a => B.map fun b => (a, b)

theorem endPairs_ports (s t : NodeData) :
    endPairs (s.terminalPorts.map fun p => (p.location, p.orientation)) (t.terminalPorts.map fun p => (p.location, p.orientation)) =
      (portPairs s t).map fun pr => ((pr.1.location, pr.1.orientation), (pr.2.location, pr.2.orientation)) := by
  simp [endPairs, portPairs, List.flatMap_map, List.map_flatMap, List.map_map, Function.comp_def]

/-- **C36**, which ends are used if several routes are equally short: those of the first pair of ports that has a route of
this length.  The routes between the pairs before it are all longer. -/
theorem C36_first_ends {q : Queue} {QI : List Entry → Prop} (hq : q.Lawful QI) (doc : Document) (hd : Drawable doc)
    (hsize : (placeNodes doc).2.size.height ≤ 1000000000) (doc' : Document) (g' : RouteGraph)
    (h : drawEdgePath q (laidOut doc) .new = .ok (doc', g')) (e : EdgeData) (he : e ∈ doc'.edges) (ps : List Point)
    (hps : e.pathPoints = some ps) :
    ∃ (k : Nat) (x y : Point × Orientation),
      (endPairs (portsOf (laidOut doc) e.sourceId) (portsOf (laidOut doc) e.targetId))[k]? = some (x, y) ∧
      ps.head? = some x.1 ∧ ps.getLast? = some y.1 ∧
      ∀ (k' : Nat) (x' y' : Point × Orientation), k' < k →
        (endPairs (portsOf (laidOut doc) e.sourceId) (portsOf (laidOut doc) e.targetId))[k']? = some (x', y') →
        ∀ (w' : List RouteNodeId) (ps' : List Point), Route g' w' → Locations g' w' ps' →
          ps'.head? = some x'.1 → ps'.getLast? = some y'.1 → routeCost ps < routeCost ps' := by
  have hsc := scene_laidOut hd hsize
  obtain ⟨g, hg, rfl, hr, e0, he0, hs0, ht0⟩ := drawn_edge hq hd hsize h he hps
  obtain ⟨s, s', hs, hs', p, hp, r, hr', i, j, w, c, hi, hj, hw, hnd, hl, -, k, hk, hfirst⟩ := hr.path
  have hcost : ∀ x y n m, Joined (connectNearest (laidOut doc) g) x y → (connectNearest (laidOut doc) g).nodes[x]? = some n →
      (connectNearest (laidOut doc) g).nodes[y]? = some m →
      (edgeCost (connectNearest (laidOut doc) g) x y : Int) = segmentCost n.location m.location :=
    fun x y n m hj hn hm => hsc.edge_cost hg hj hn hm
  have hwf := connect_wellFormed (laidOut doc) g hg.wf
  have hpairs : endPairs (portsOf (laidOut doc) e.sourceId) (portsOf (laidOut doc) e.targetId) =
      (portPairs s s').map fun pr => ((pr.1.location, pr.1.orientation), (pr.2.location, pr.2.orientation)) := by
    simp only [portsOf, hs, hs', endPairs_ports]
  rw [hpairs]
  obtain ⟨hw1, hw2, -⟩ := walk_route hw
  refine ⟨k, (p.location, p.orientation), (r.location, r.orientation), by simp [hk], ?_, ?_, ?_⟩
  · have hlen := hl.length
    rw [List.head?_eq_getElem?] at hw1 ⊢
    have hlt : 0 < ps.length := by rw [← hlen]; exact (List.getElem?_eq_some_iff.mp hw1).1
    obtain ⟨x, n, hx, hn, hnl⟩ := hl.get 0 _ (List.getElem?_eq_getElem hlt)
    rw [hw1] at hx
    cases hx
    rw [hi] at hn
    cases hn
    rw [List.getElem?_eq_getElem hlt, ← hnl]
  · have hlen := hl.length
    rw [List.getLast?_eq_getElem?] at hw2 ⊢
    have hlt : ps.length - 1 < ps.length := by rw [← hlen]; exact (List.getElem?_eq_some_iff.mp hw2).1
    obtain ⟨x, n, hx, hn, hnl⟩ := hl.get _ _ (List.getElem?_eq_getElem hlt)
    rw [hlen] at hw2
    rw [hw2] at hx
    cases hx
    rw [hj] at hn
    cases hn
    rw [List.getElem?_eq_getElem hlt, ← hnl]
  · intro k' x' y' hk' hx' w' ps' hroute hloc hha hhb
    rw [← walk_cost hcost hw hl]
    rw [List.getElem?_map, Option.map_eq_some_iff] at hx'
    obtain ⟨⟨p', r'⟩, hpr, hx'⟩ := hx'
    simp only [Prod.mk.injEq] at hx'
    obtain ⟨rfl, rfl⟩ := hx'
    have hmem : e0 ∈ (laidOut doc).edges := by rw [(laidOut_edges doc).1]; exact he0
    have hmp : p' ∈ s.terminalPorts ∧ r' ∈ s'.terminalPorts := by
      have := List.mem_of_getElem? hpr
      simp only [portPairs, List.mem_flatMap, List.mem_map, Prod.mk.injEq] at this
      obtain ⟨a, ha, b, hb, rfl, rfl⟩ := this
      exact ⟨ha, hb⟩
    rw [← hs0] at hs
    rw [← ht0] at hs'
    obtain ⟨i', hi', hin⟩ := hg.ports p' (EdgeEnds.mem_ports hmem hs hs' (Or.inl hmp.1))
    obtain ⟨j', hj', hjn⟩ := hg.ports r' (EdgeEnds.mem_ports hmem hs hs' (Or.inr hmp.2))
    rw [← (connect_nodes (laidOut doc) g).1] at hin hjn
    have hlen := hloc.length
    have hwi : w'.head? = some i' := by
      rw [List.head?_eq_getElem?] at hha ⊢
      obtain ⟨x, n, hx, hn, hnl⟩ := hloc.get _ _ hha
      rw [hx, node_unique hwf hn hin hnl]
    have hwj : w'.getLast? = some j' := by
      rw [List.getLast?_eq_getElem?] at hhb ⊢
      obtain ⟨x, n, hx, hn, hnl⟩ := hloc.get _ _ hhb
      rw [hlen, hx, node_unique hwf hn hjn hnl]
    obtain ⟨c', hw'⟩ := route_walk (edgeCost (connectNearest (laidOut doc) g)) w' hwi hwj hroute
    rw [← walk_cost hcost hw' hloc]
    exact_mod_cast hfirst k' (p', r') hk' hpr i' j' hin hjn w' c' hw'

example : routeCost [⟨350, 205/2⟩, ⟨390, 205/2⟩, ⟨390, 160⟩, ⟨770, 160⟩, ⟨770, 275/2⟩, ⟨810, 275/2⟩] = 539 := by decide +kernel

/-! ## C37 -/

/-- **C37.** All points of all paths are inside the view box, at least 10 units away from its border. -/
theorem C37_paths_in_view_box {q : Queue} {QI : List Entry → Prop} (hq : q.Lawful QI) (doc : Document) (hd : Drawable doc)
    (hsize : (placeNodes doc).2.size.height ≤ 1000000000) (doc' : Document) (g' : RouteGraph)
    (h : drawEdgePath q (laidOut doc) .new = .ok (doc', g')) (e : EdgeData) (he : e ∈ doc'.edges) (ps : List Point)
    (hps : e.pathPoints = some ps) (p : Point) (hp : p ∈ ps) :
    let v := (placeNodes doc).2
    v.origin.x + 10 ≤ p.x ∧ p.x ≤ v.origin.x + v.size.width - 10 ∧
    v.origin.y + 10 ≤ p.y ∧ p.y ≤ v.origin.y + v.size.height - 10 := by
  intro v
  have hsc := scene_laidOut hd hsize
  obtain ⟨g, hg, rfl, hr, -⟩ := drawn_edge hq hd hsize h he hps
  obtain ⟨s, s', -, -, p0, -, r, -, i, j, w, c, -, -, hw, -, hl, -⟩ := hr.path
  obtain ⟨n, hn, rfl⟩ := hl.mem p hp
  rw [(connect_nodes _ g).1] at hn
  obtain ⟨k, m, hk, h1, h2, h3, k', m', hk', h4⟩ := hsc.node_bounds hg hn
  have hbound : ∀ (k m : Nat), (lineCounts doc)[k]? = some m → v.origin = ⟨0, 0⟩ ∧
      50 + 380 * col k + 300 + 50 ≤ v.size.width ∧ bot (lineCounts doc) k m + 50 ≤ v.size.height := by
    intro k m hk
    simp only [lineCounts, List.getElem?_map, Option.map_eq_some_iff] at hk
    obtain ⟨t, ht, rfl⟩ := hk
    have htm := List.mem_of_getElem? ht
    obtain ⟨hv0, -, -, hv⟩ := C23_view_box_partial doc hd.tabular (List.ne_nil_of_mem htm)
    obtain ⟨r, hr, -, hx, -, hy⟩ := hv t (List.mem_append.mpr (Or.inl htm))
    rw [rectOf_table hd.tabular k t ht] at hr
    cases hr
    rw [hv0] at hx hy
    simp only [tableRect, zero_add] at hx hy
    exact ⟨hv0, hx, hy⟩
  obtain ⟨b0, b1, -⟩ := hbound k m hk
  obtain ⟨-, -, b2⟩ := hbound k' m' hk'
  rw [b0]
  simp only [zero_add]
  exact ⟨h1, by linarith, h3, by linarith⟩

end Seiren
