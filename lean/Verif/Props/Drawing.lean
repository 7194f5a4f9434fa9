import Verif.Proofs.Grid
import Verif.Props.Render
/-! # C40, C41: which diagrams are drawn -/

namespace Seiren
open Spec

/-! ## Specification -/

/-- The two nodes have a port at the same place. -/
def Spec.ShareAPort (doc : Document) (s t : NodeId) : Prop :=
  ∃ p o o', (p, o) ∈ portsOf doc s ∧ (p, o') ∈ portsOf doc t

/-- The two ends of a relation have a port at the same place: an end related to itself, or a table related to its own last
or middle line.  (A table with `n` columns has `n + 1` lines, column `j` is in line `j + 1`.) -/
def Spec.Meet (defs : List EntityDefinition) : NodeRef → NodeRef → Prop
  | .table k, .table k' => k = k'
  | .column k j, .column k' j' => k = k' ∧ j = j'
  | .table k, .column k' j => k = k' ∧ ∃ d, defs[k]? = some d ∧ (j + 1 = d.fields.length ∨ 2 * (j + 1) = d.fields.length)
  | .column k' j, .table k => k = k' ∧ ∃ d, defs[k]? = some d ∧ (j + 1 = d.fields.length ∨ 2 * (j + 1) = d.fields.length)

/-- A segment of the path passes through the interior of a table. -/
def Spec.PassesThrough (doc : Document) (ps : List Point) : Prop :=
  ∃ (k : Nat) (a b : Point) (r : Rect), ps[k]? = some a ∧ ps[k + 1]? = some b ∧ IsTable doc r ∧ Crosses r a b

/-! ## Paths of one point -/

/-- **C41**, for documents: a path consists of one point exactly if its ends have a port at the same place. -/
theorem C41_one_point_exact {q : Queue} {QI : List Entry → Prop} (hq : q.Lawful QI) (doc : Document) (hd : Drawable doc)
    (hsize : (placeNodes doc).2.size.height ≤ 1000000000) (doc' : Document) (g' : RouteGraph)
    (h : drawEdgePath q (laidOut doc) .new = .ok (doc', g')) (e : EdgeData) (he : e ∈ doc'.edges) (ps : List Point)
    (hps : e.pathPoints = some ps) : ps.length = 1 ↔ ShareAPort (laidOut doc) e.sourceId e.targetId := by
  have hsc := scene_laidOut hd hsize
  constructor
  · intro hlen
    obtain ⟨a, b, o, o', h1, h2, h3, h4⟩ := C33_paths_connect_ports hq doc hd hsize doc' g' h e he ps hps
    match ps, hlen with
    | [p], _ =>
      simp only [List.head?_cons, Option.some.injEq] at h1
      simp only [List.getLast?_singleton, Option.some.injEq] at h2
      subst h1 h2
      exact ⟨_, o, o', h3, h4⟩
  · rintro ⟨p, o, o', h1, h2⟩
    obtain ⟨g, hg, rfl, hr, e0, he0, hs0, ht0⟩ := drawn_edge hq hd hsize h he hps
    obtain ⟨s, t, hs, ht, p1, hp1, r1, hr1, i, j, w, c, hi, hj, hw, hnd, hl, hmin, -⟩ := hr.path
    have hports : ∀ x ∈ s.terminalPorts ++ t.terminalPorts, x ∈ portsOfEdges (laidOut doc) := by
      intro x hx
      unfold portsOfEdges
      rw [List.mem_flatMap, (laidOut_edges doc).1]
      refine ⟨e0, he0, ?_⟩
      rw [hs0.symm] at hs; rw [ht0.symm] at ht
      simp only [edgePorts, Document.getNode, hs, ht]
      exact hx
    simp only [portsOf, hs, List.mem_map, Prod.mk.injEq] at h1
    simp only [portsOf, ht, List.mem_map, Prod.mk.injEq] at h2
    obtain ⟨a, ha, rfl, rfl⟩ := h1
    obtain ⟨b, hb, hbl, rfl⟩ := h2
    obtain ⟨i', hi1, hi2⟩ := hg.ports a (hports a (by simp [ha]))
    obtain ⟨j', hj1, hj2⟩ := hg.ports b (hports b (by simp [hb]))
    have hij : i' = j' := node_unique hg.wf hi2 hj2 (by simp [hbl])
    subst hij
    rw [← (connect_nodes (laidOut doc) g).1] at hi2 hj2
    have hc := hmin a ha b hb i' i' hi2 hj2 [i'] 0 .start
    have hcost := walk_cost (fun x y n m hj hn hm => hsc.edge_cost hg hj hn hm) hw hl
    have hc0 : c = 0 := by omega
    rw [hc0] at hcost
    obtain ⟨w1, w2, w3⟩ := walk_route hw
    match ps, hl, hcost with
    | [], hl, _ => cases hl; cases w1
    | [x], _, _ => rfl
    | x :: y :: ps', hl, hcost =>
      exfalso
      have hpos : ∀ (l : List Point) (w' : List RouteNodeId), Locations (connectNearest (laidOut doc) g) w' l →
          Route (connectNearest (laidOut doc) g) w' → 0 ≤ routeCost l := by
        intro l
        induction l with
        | nil => intro w' _ _; simp [routeCost]
        | cons a l ih =>
          cases l with
          | nil => intro w' _ _; simp [routeCost]
          | cons b l =>
            intro w' hl' hr'
            obtain ⟨x1, y1, n, m, d, -, -, hn, hm, rfl, rfl, hlk, -⟩ := segment_linked hg hl' hr' 0 a b rfl rfl
            have hne : n.location ≠ m.location := by
              intro he
              have := hlk.1
              rw [he] at this
              cases d <;> simp [Towards] at this
            have h2 := hsc.segmentCost_pos hg (List.mem_of_getElem? hn) (List.mem_of_getElem? hm) hne
            match w', hl', hr' with
            | _ :: w'', .cons _ hl'', hr' =>
              have := ih w'' hl'' (fun k u v hu hv => hr' (k + 1) u v (by simpa using hu) (by simpa using hv))
              simp only [routeCost] at this ⊢
              omega
      obtain ⟨x1, y1, n, m, d, -, -, hn, hm, rfl, rfl, hlk, -⟩ := segment_linked hg hl w3 0 x y rfl rfl
      have hne : n.location ≠ m.location := by
        intro he
        have := hlk.1
        rw [he] at this
        cases d <;> simp [Towards] at this
      have h2 := hsc.segmentCost_pos hg (List.mem_of_getElem? hn) (List.mem_of_getElem? hm) hne
      match w, hl, w3 with
      | _ :: w'', .cons _ hl'', w3 =>
        have := hpos (m.location :: ps') w'' hl'' (fun k u v hu hv => w3 (k + 1) u v (by simpa using hu) (by simpa using hv))
        simp only [routeCost] at hcost
        omega

/-! ## Which ends share a port -/

theorem mem_lineOrientations {j n : Nat} (hj : j < n) (o : Orientation) :
    o ∈ lineOrientations j n ↔ (o = .up → j = 0) ∧ (o = .down → j + 1 = n) := by
  unfold lineOrientations
  by_cases h1 : n = 1
  · subst h1
    have : j = 0 := by omega
    subst this
    cases o <;> simp
  · rw [if_neg h1]
    by_cases h2 : j = 0
    · subst h2
      (cases o <;> simp); omega
    · rw [if_neg h2]
      by_cases h3 : j = n - 1
      · rw [if_pos h3]
        (cases o <;> simp [h2]); omega
      · rw [if_neg h3]
        (cases o <;> simp [h2]); omega

/-- Where the ports of a table or line are: number of the table and, for a line, number of the line. -/
theorem mem_ports_table {doc : Document} (hd : Drawable doc) {k : Nat} {t : NodeId} (ht : (tables doc)[k]? = some t) (p : Point) (o : Orientation) :
    (p, o) ∈ portsOf (laidOut doc) t ↔ p = sideMiddle (tableRect (lineCounts doc) k (childrenOf doc t).length) o := by
  rw [portsOf_table hd.tabular hd.noPorts k t ht, List.mem_map]
  constructor
  · rintro ⟨o', -, h⟩
    simp only [Prod.mk.injEq] at h
    rw [← h.1, h.2]
  · rintro rfl
    exact ⟨o, by cases o <;> simp, rfl⟩

theorem mem_ports_line {doc : Document} (hd : Drawable doc) {k j : Nat} {t l : NodeId} (ht : (tables doc)[k]? = some t)
    (hl : (childrenOf doc t)[j]? = some l) (p : Point) (o : Orientation) :
    (p, o) ∈ portsOf (laidOut doc) l ↔ p = sideMiddle (lineRect (lineCounts doc) k j) o ∧ (o = .up → j = 0) ∧
      (o = .down → j + 1 = (childrenOf doc t).length) := by
  rw [portsOf_line hd.tabular hd.noPorts k j t l ht hl, List.mem_map,
    ← mem_lineOrientations (List.getElem?_eq_some_iff.mp hl).1]
  constructor
  · rintro ⟨o', ho, h⟩
    simp only [Prod.mk.injEq] at h
    rw [← h.1, ← h.2]
    exact ⟨rfl, ho⟩
  · rintro ⟨rfl, ho⟩
    exact ⟨o, ho, rfl⟩

theorem count_at {doc : Document} {k : Nat} {t : NodeId} (ht : (tables doc)[k]? = some t) :
    (lineCounts doc)[k]? = some (childrenOf doc t).length := by simp [lineCounts, ht]

section share
variable {doc : Document} (hd : Drawable doc) (hsize : (placeNodes doc).2.size.height ≤ 1000000000)
include hd hsize

theorem share_table_table {k k' : Nat} {t t' : NodeId} (ht : (tables doc)[k]? = some t) (ht' : (tables doc)[k']? = some t') :
    ShareAPort (laidOut doc) t t' ↔ k = k' := by
  constructor
  · rintro ⟨p, o, o', h1, h2⟩
    rw [mem_ports_table hd ht] at h1
    rw [mem_ports_table hd ht'] at h2
    have n1 := List.length_pos_iff.mpr (hd.lines t (List.mem_of_getElem? ht))
    have n2 := List.length_pos_iff.mpr (hd.lines t' (List.mem_of_getElem? ht'))
    have a1 : PortAt (lineCounts doc) k (childrenOf doc t).length o p := by rw [h1]; exact portAt_table _ _ _ n1 o
    have a2 : PortAt (lineCounts doc) k' (childrenOf doc t').length o' p := by rw [h2]; exact portAt_table _ _ _ n2 o'
    exact same_table (scene_laidOut hd hsize) (count_at ht) (count_at ht') a1 a2
  · rintro rfl
    rw [ht] at ht'
    cases ht'
    exact ⟨_, .up, .up, (mem_ports_table hd ht _ _).mpr rfl, (mem_ports_table hd ht _ _).mpr rfl⟩

theorem share_table_line {k k' j : Nat} {t t' l : NodeId} (ht : (tables doc)[k]? = some t) (ht' : (tables doc)[k']? = some t')
    (hl : (childrenOf doc t')[j]? = some l) :
    ShareAPort (laidOut doc) t l ↔
      k = k' ∧ (j = 0 ∨ j + 1 = (childrenOf doc t).length ∨ 2 * j + 1 = (childrenOf doc t).length) := by
  have hj := (List.getElem?_eq_some_iff.mp hl).1
  constructor
  · rintro ⟨p, o, o', h1, h2⟩
    rw [mem_ports_table hd ht] at h1
    rw [mem_ports_line hd ht' hl] at h2
    have n1 := List.length_pos_iff.mpr (hd.lines t (List.mem_of_getElem? ht))
    have hsc := scene_laidOut hd hsize
    have a1 : PortAt (lineCounts doc) k (childrenOf doc t).length o p := by rw [h1]; exact portAt_table _ _ _ n1 o
    have a2 : PortAt (lineCounts doc) k' (childrenOf doc t').length o' p := by
      rw [h2.1]; exact portAt_line _ _ _ _ hj o' ((mem_lineOrientations hj o').mpr h2.2)
    have hk := same_table hsc (count_at ht) (count_at ht') a1 a2
    have ho := hsc.port_orientation (count_at ht) (count_at ht') a1 a2
    subst hk ho
    rw [ht] at ht'
    cases ht'
    refine ⟨rfl, ?_⟩
    have h3 := h2.1
    rw [h1] at h3
    cases o <;> simp only [sideMiddle, tableRect, lineRect, Point.mk.injEq] at h3
    · exact Or.inl (h2.2.1 rfl)
    · exact Or.inr (Or.inl (h2.2.2 rfl))
    · right; right
      have : (2 * (j : Rat) + 1) = ((childrenOf doc t).length : Rat) := by linarith [h3.2]
      exact_mod_cast this
    · right; right
      have : (2 * (j : Rat) + 1) = ((childrenOf doc t).length : Rat) := by linarith [h3.2]
      exact_mod_cast this
  · rintro ⟨rfl, h⟩
    rw [ht] at ht'
    cases ht'
    rcases h with h | h | h
    · subst h
      refine ⟨_, .up, .up, (mem_ports_table hd ht _ _).mpr rfl, (mem_ports_line hd ht hl _ _).mpr ⟨?_, by simp, by simp⟩⟩
      simp [sideMiddle, tableRect, lineRect]
    · refine ⟨_, .down, .down, (mem_ports_table hd ht _ _).mpr rfl, (mem_ports_line hd ht hl _ _).mpr ⟨?_, by simp, by simp [h]⟩⟩
      simp only [sideMiddle, tableRect, lineRect, ← h, Point.mk.injEq, true_and]
      push_cast; ring
    · refine ⟨_, .left, .left, (mem_ports_table hd ht _ _).mpr rfl, (mem_ports_line hd ht hl _ _).mpr ⟨?_, by simp, by simp⟩⟩
      simp only [sideMiddle, tableRect, lineRect, ← h, Point.mk.injEq, true_and]
      push_cast; ring

theorem share_line_line {k k' j j' : Nat} {t t' l l' : NodeId} (ht : (tables doc)[k]? = some t) (ht' : (tables doc)[k']? = some t')
    (hl : (childrenOf doc t)[j]? = some l) (hl' : (childrenOf doc t')[j']? = some l') :
    ShareAPort (laidOut doc) l l' ↔ k = k' ∧ j = j' := by
  have hj := (List.getElem?_eq_some_iff.mp hl).1
  have hj' := (List.getElem?_eq_some_iff.mp hl').1
  constructor
  · rintro ⟨p, o, o', h1, h2⟩
    rw [mem_ports_line hd ht hl] at h1
    rw [mem_ports_line hd ht' hl'] at h2
    have hsc := scene_laidOut hd hsize
    have a1 : PortAt (lineCounts doc) k (childrenOf doc t).length o p := by
      rw [h1.1]; exact portAt_line _ _ _ _ hj o ((mem_lineOrientations hj o).mpr h1.2)
    have a2 : PortAt (lineCounts doc) k' (childrenOf doc t').length o' p := by
      rw [h2.1]; exact portAt_line _ _ _ _ hj' o' ((mem_lineOrientations hj' o').mpr h2.2)
    have hk := same_table hsc (count_at ht) (count_at ht') a1 a2
    have ho := hsc.port_orientation (count_at ht) (count_at ht') a1 a2
    subst hk ho
    rw [ht] at ht'
    cases ht'
    refine ⟨rfl, ?_⟩
    have h3 := h2.1
    rw [h1.1] at h3
    cases o <;> simp only [sideMiddle, lineRect, Point.mk.injEq] at h3
    · have := h1.2.1 rfl
      have := h2.2.1 rfl
      omega
    · have := h1.2.2 rfl
      have := h2.2.2 rfl
      omega
    · have : (j : Rat) = (j' : Rat) := by linarith [h3.2]
      exact_mod_cast this
    · have : (j : Rat) = (j' : Rat) := by linarith [h3.2]
      exact_mod_cast this
  · rintro ⟨rfl, rfl⟩
    rw [ht] at ht'
    cases ht'
    rw [hl] at hl'
    cases hl'
    exact ⟨_, .left, .left, (mem_ports_line hd ht hl _ _).mpr ⟨rfl, by simp, by simp⟩,
      (mem_ports_line hd ht hl _ _).mpr ⟨rfl, by simp, by simp⟩⟩

end share

theorem ShareAPort.symm {doc : Document} {s t : NodeId} (h : ShareAPort doc s t) : ShareAPort doc t s := by
  obtain ⟨p, o, o', h1, h2⟩ := h
  exact ⟨p, o', o, h2, h1⟩

theorem nodeOf_table {doc : Document} {k : Nat} {i : NodeId} (h : nodeOf doc (.table k) = some i) : (tables doc)[k]? = some i := by
  unfold nodeOf at h
  cases hb : doc.nodes[doc.bodyId]? with
  | none => rw [hb] at h; cases h
  | some b =>
    rw [hb] at h
    simpa [tables, childrenOf, hb] using h

theorem nodeOf_column {doc : Document} {k j : Nat} {i : NodeId} (h : nodeOf doc (.column k j) = some i) :
    ∃ t, (tables doc)[k]? = some t ∧ (childrenOf doc t)[j + 1]? = some i := by
  unfold nodeOf at h
  cases hb : doc.nodes[doc.bodyId]? with
  | none => rw [hb] at h; cases h
  | some b =>
    rw [hb] at h
    cases ht : b.children[k]? with
    | none => simp [ht] at h
    | some t =>
      simp only [ht] at h
      cases hn : doc.nodes[t]? with
      | none => simp [hn] at h
      | some n =>
        simp only [hn] at h
        exact ⟨t, by simpa [tables, childrenOf, hb] using ht, by simpa [childrenOf, hn] using h⟩

theorem share_iff_meet (m : Module) (hsize : (placeNodes m.intoMir).2.size.height ≤ 1000000000) {r r' : NodeRef} {i i' : NodeId}
    (h : nodeOf m.intoMir r = some i) (h' : nodeOf m.intoMir r' = some i') :
    ShareAPort (laidOut m.intoMir) i i' ↔ Meet (definitions m.entries) r r' := by
  have hd := drawable_intoMir m
  have hcount : ∀ (k : Nat) (t : NodeId), (tables m.intoMir)[k]? = some t →
      ∃ d, (definitions m.entries)[k]? = some d ∧ (childrenOf m.intoMir t).length = d.fields.length + 1 := by
    intro k t ht
    have := count_at ht
    rw [lineCounts_intoMir, List.getElem?_map, Option.map_eq_some_iff] at this
    obtain ⟨d, h1, h2⟩ := this
    exact ⟨d, h1, h2.symm⟩
  have mixed : ∀ (k k' j : Nat) (t t' l : NodeId), (tables m.intoMir)[k]? = some t → (tables m.intoMir)[k']? = some t' →
      (childrenOf m.intoMir t')[j + 1]? = some l →
      (ShareAPort (laidOut m.intoMir) t l ↔ Meet (definitions m.entries) (.table k) (.column k' j)) := by
    intro k k' j t t' l ht ht' hl
    rw [share_table_line hd hsize ht ht' hl]
    obtain ⟨d, hd1, hd2⟩ := hcount k t ht
    simp only [Meet, hd1, hd2, Option.some.injEq, exists_eq_left']
    constructor
    · rintro ⟨rfl, h | h | h⟩
      · omega
      · exact ⟨rfl, Or.inl (by omega)⟩
      · exact ⟨rfl, Or.inr (by omega)⟩
    · rintro ⟨rfl, h | h⟩
      · exact ⟨rfl, Or.inr (Or.inl (by omega))⟩
      · exact ⟨rfl, Or.inr (Or.inr (by omega))⟩
  cases r with
  | table k =>
    have ht := nodeOf_table h
    cases r' with
    | table k' => rw [share_table_table hd hsize ht (nodeOf_table h')]; rfl
    | column k' j' =>
      obtain ⟨t', ht', hl'⟩ := nodeOf_column h'
      exact mixed _ _ _ _ _ _ ht ht' hl'
  | column k j =>
    obtain ⟨t, ht, hl⟩ := nodeOf_column h
    cases r' with
    | table k' =>
      constructor
      · intro hs; exact (mixed _ _ _ _ _ _ (nodeOf_table h') ht hl).mp (ShareAPort.symm hs)
      · intro hs; exact ShareAPort.symm ((mixed _ _ _ _ _ _ (nodeOf_table h') ht hl).mpr hs)
    | column k' j' =>
      obtain ⟨t', ht', hl'⟩ := nodeOf_column h'
      rw [share_line_line hd hsize ht ht' hl hl']
      simp [Meet]

/-! ## C41 -/

/-- The edges of the drawn document, in order, belong to the resolved relations of the module. -/
theorem drawn_connections {q : Queue} {QI : List Entry → Prop} (hq : q.Lawful QI) (m : Module)
    (hsize : (placeNodes m.intoMir).2.size.height ≤ 1000000000) :
    ∃ doc' g', drawEdgePath q (laidOut m.intoMir) .new = .ok (doc', g') ∧
      doc'.nodes = (laidOut m.intoMir).nodes ∧ doc'.bodyId = m.intoMir.bodyId ∧
      (∀ e ∈ doc'.edges, ∃ ps, e.pathPoints = some ps ∧ ps ≠ []) ∧
      doc'.edges.map (fun e => (some e.sourceId, some e.targetId)) =
        (connections [] m.entries).map (fun c => (nodeOf m.intoMir c.1, nodeOf m.intoMir c.2)) := by
  obtain ⟨doc', g', h1, hn, hb, he, hps⟩ := C32_routing_never_panics hq m.intoMir (drawable_intoMir m) hsize
  refine ⟨doc', g', h1, hn, hb, hps, ?_⟩
  rw [← (C17_relations m).1]
  have := congrArg (List.map fun p : NodeId × NodeId => (some p.1, some p.2)) he
  simpa [List.map_map, Function.comp_def] using this

/-- **C41**, which paths consist of one point: the path of relation number `i` does exactly if its ends are the same, or are a
table and its own last or middle line. -/
theorem C41_self_relations_partial {q : Queue} {QI : List Entry → Prop} (hq : q.Lawful QI) (m : Module)
    (hsize : (placeNodes m.intoMir).2.size.height ≤ 1000000000) (doc' : Document) (g' : RouteGraph)
    (h : drawEdgePath q (laidOut m.intoMir) .new = .ok (doc', g')) (i : Nat) (s t : NodeRef) (e : EdgeData) (ps : List Point)
    (hi : (connections [] m.entries)[i]? = some (s, t)) (he : doc'.edges[i]? = some e) (hps : e.pathPoints = some ps) :
    ps.length = 1 ↔ Meet (definitions m.entries) s t := by
  obtain ⟨doc2, g2, h1, -, -, -, hmap⟩ := drawn_connections hq m hsize
  rw [h1] at h
  simp only [Except.ok.injEq, Prod.mk.injEq] at h
  obtain ⟨rfl, rfl⟩ := h
  have hx := congrArg (fun l => l[i]?) hmap
  simp only [List.getElem?_map, he, hi, Option.map_some, Option.some.injEq, Prod.mk.injEq] at hx
  rw [C41_one_point_exact hq _ (drawable_intoMir m) hsize _ _ h1 e (List.mem_of_getElem? he) ps hps]
  exact share_iff_meet m hsize hx.1.symm hx.2.symm

theorem drawModule_eq (q : Queue) (m : Module) : drawModule q m = (match drawEdgePath q (laidOut m.intoMir) .new with
      | .error p => .error (.panic p)
      | .ok (doc, _) => render (some (placeNodes m.intoMir).2) doc) := rfl

/-- **C41 is false as stated**: no module with a relation from a table or column to itself is drawn, nor one with a relation
between a table and its own last or middle line.  Drawing it panics. -/
theorem C41_refuted {q : Queue} {QI : List Entry → Prop} (hq : q.Lawful QI) (m : Module)
    (hsize : (placeNodes m.intoMir).2.size.height ≤ 1000000000) (s t : NodeRef) (hm : (s, t) ∈ connections [] m.entries)
    (hmeet : Meet (definitions m.entries) s t) : ∃ p, drawModule q m = .error (.panic p) := by
  obtain ⟨doc', g', h1, hn, hb, hps, hmap⟩ := drawn_connections hq m hsize
  obtain ⟨i, hi⟩ := List.getElem?_of_mem hm
  have hx := congrArg (fun l => l[i]?) hmap
  simp only [List.getElem?_map, hi, Option.map_some] at hx
  rw [Option.map_eq_some_iff] at hx
  obtain ⟨e, he, -⟩ := hx
  obtain ⟨ps, hpe, -⟩ := hps e (List.mem_of_getElem? he)
  have hlen := (C41_self_relations_partial hq m hsize doc' g' h1 i s t e ps hi he hpe).mpr hmeet
  rw [drawModule_eq, h1]
  simp only
  cases hr : render (some (placeNodes m.intoMir).2) doc' with
  | ok el =>
    exfalso
    obtain ⟨ps', d, h2, h3⟩ := ((C42_ok_exact _ _).mp ⟨el, hr⟩).2 e (List.mem_of_getElem? he)
    rw [hpe] at h2
    cases h2
    have := (C46_turnaround_exact ps .pathTooShort).mpr (Or.inl ⟨by omega, rfl⟩)
    rw [h3] at this
    cases this
  | error x =>
    cases x with
    | panic p => exact ⟨p, rfl⟩
    | invalidLayout id => exact absurd hr (C42_never_after_layout hq _ (drawable_intoMir m) hsize h1 _ id)

/-- A column referring to itself (say, a parent of the same table, written carelessly), and a table related to its middle
column: both fail to be drawn. -/
def selfRelation : Module :=
  ⟨none, [.definition ⟨c!"a", [⟨c!"id", .int, none⟩, ⟨c!"parent", .int, none⟩, ⟨c!"x", .int, none⟩]⟩,
    .relation ⟨.field c!"a" c!"parent", .field c!"a" c!"parent"⟩]⟩

example : connections [] selfRelation.entries = [(.column 0 1, .column 0 1)] ∧ Meet (definitions selfRelation.entries) (.column 0 1) (.column 0 1) ∧
    (placeNodes selfRelation.intoMir).2.size.height = 240 := ⟨by decide +kernel, ⟨rfl, rfl⟩, by decide +kernel⟩

/-! ## C40 -/

/-- A path that turns back does not return to the same point, and passes through a table just before or just after. -/
theorem turnsBack_crosses {q : Queue} {QI : List Entry → Prop} (hq : q.Lawful QI) (doc : Document) (hd : Drawable doc)
    (hsize : (placeNodes doc).2.size.height ≤ 1000000000) (doc' : Document) (g' : RouteGraph)
    (h : drawEdgePath q (laidOut doc) .new = .ok (doc', g')) (e : EdgeData) (he : e ∈ doc'.edges) (ps : List Point)
    (hps : e.pathPoints = some ps) (k : Nat) (hk : TurnsBack ps k) : ∃ a b c d r, ps[k]? = some a ∧ ps[k + 1]? = some b ∧
      ps[k + 2]? = some c ∧ Heads d a b ∧ Heads (opposite d) b c ∧ a ≠ c ∧ IsTable doc r ∧ (Crosses r a b ∨ Crosses r b c) := by
  have hsc := scene_laidOut hd hsize
  obtain ⟨g, hg, rfl, hr, -⟩ := drawn_edge hq hd hsize h he hps
  obtain ⟨s, t, -, -, p, -, r, -, i, j, w, c, -, -, hw, hnd, hl, -⟩ := hr.path
  obtain ⟨a, b, c, d, ha, hb, hc, h1, h2⟩ := hk
  have hroute := (walk_route hw).2.2
  obtain ⟨x, y, n, m, d1, hx, hy, hn, hm, rfl, rfl, hl1, hj1⟩ := segment_linked hg hl hroute k a b ha hb
  obtain ⟨y', z, m', o, d2, hy', hz, hm', ho, hml, rfl, hl2, hj2⟩ := segment_linked hg hl hroute (k + 1) _ c hb hc
  rw [hy] at hy'
  cases hy'
  rw [hm] at hm'
  cases hm'
  have e1 := heads_unique h1 hl1.1.heads
  have e2 := heads_unique h2 hl2.1.heads
  subst e1
  subst e2
  have hxz : x ≠ z := by
    intro hxz
    subst hxz
    have hlt : k < w.length := (List.getElem?_eq_some_iff.mp hx).1
    have := (List.getElem?_inj hlt hnd).mp (hx.trans hz.symm)
    omega
  have hloc : n.location ≠ o.location := fun heq => hxz (node_unique hg.wf hn ho heq)
  have hback := hl1.symm
  have hside : Nearer (opposite d) o n ∨ Nearer (opposite d) n o := by
    by_contra hcon
    push Not at hcon
    apply hloc
    have t1 := hback.1
    have t2 := hl2.1
    obtain ⟨⟨nx, ny⟩, no⟩ := n
    obtain ⟨⟨ox, oy⟩, oo⟩ := o
    cases d <;> simp only [opposite, Towards] at t1 t2 <;> simp only [opposite, Nearer, not_lt, gt_iff_lt] at hcon <;>
      simp only [Point.mk.injEq]
    · exact ⟨by rw [t1.1, t2.1], le_antisymm hcon.2 hcon.1⟩
    · exact ⟨by rw [t1.1, t2.1], le_antisymm hcon.1 hcon.2⟩
    · exact ⟨le_antisymm hcon.2 hcon.1, by rw [t1.1, t2.1]⟩
    · exact ⟨le_antisymm hcon.1 hcon.2, by rw [t1.1, t2.1]⟩
  have crosses_symm : ∀ (r : Rect) (a b : Point), Crosses r a b → Crosses r b a := by
    rintro r a b ⟨t, t0, t1, hin⟩
    refine ⟨1 - t, by linarith, by linarith, ?_⟩
    have : lerp b a (1 - t) = lerp a b t := by simp only [lerp, Point.mk.injEq]; constructor <;> ring
    rw [this]; exact hin
  have fin : ∀ (k' n' : Nat), (lineCounts doc)[k']? = some n' →
      (Crosses (tableRect (lineCounts doc) k' n') m.location n.location ∨ Crosses (tableRect (lineCounts doc) k' n') m.location o.location) →
      ∃ a b c d r, ps[k]? = some a ∧ ps[k + 1]? = some b ∧ ps[k + 2]? = some c ∧ Heads d a b ∧ Heads (opposite d) b c ∧ a ≠ c ∧
        IsTable doc r ∧ (Crosses r a b ∨ Crosses r b c) := by
    intro k' n' hk' hcr
    have htab := (isTable_iff hd _).mpr ⟨k', n', hk', rfl⟩
    refine ⟨_, _, _, _, _, ha, hb, hc, h1, h2, hloc, htab, ?_⟩
    rcases hcr with hcr | hcr
    · exact .inl (crosses_symm _ _ _ hcr)
    · exact .inr hcr
  rcases hside with hs | hs
  · obtain ⟨k', n', hk', hcr⟩ := hsc.detour hg hm hn ho hback hl2 hs hj2
    exact fin k' n' hk' hcr
  · have hj1' : Joined (connectNearest (laidOut doc) g) y x := by
      unfold Joined at hj1 ⊢
      tauto
    obtain ⟨k', n', hk', hcr⟩ := hsc.detour hg hm ho hn hl2 hback hs hj1'
    exact fin k' n' hk' hcr.symm

/-- A module is drawn if no relation joins an end to itself or a table to its own last or middle line, and no path turns back. -/
theorem drawn_unless_turn {q : Queue} {QI : List Entry → Prop} (hq : q.Lawful QI) (m : Module)
    (hsize : (placeNodes m.intoMir).2.size.height ≤ 1000000000)
    (hmeet : ∀ c ∈ connections [] m.entries, ¬ Meet (definitions m.entries) c.1 c.2)
    (hturn : ∀ doc' g', drawEdgePath q (laidOut m.intoMir) .new = .ok (doc', g') → ∀ e ∈ doc'.edges, ∀ ps, e.pathPoints = some ps →
      ∀ k, ¬ TurnsBack ps k) : ∃ el, drawModule q m = .ok el := by
  obtain ⟨doc', g', h1, hn, hb, hps, hmap⟩ := drawn_connections hq m hsize
  have hd := drawable_intoMir m
  rw [drawModule_eq, h1]
  simp only
  rw [C42_ok_exact]
  constructor
  · rw [unplaced_congr hn (by rw [hb, (laidOut_rest m.intoMir).2.1]), unplaced_laidOut hd.tabular]
  · intro e he
    obtain ⟨ps, hpe, hne⟩ := hps e he
    obtain ⟨i, hi⟩ := List.getElem?_of_mem he
    cases hp : pathData ps with
    | ok d => exact ⟨ps, d, hpe, hp⟩
    | error x =>
      exfalso
      rcases (C46_turnaround_exact ps x).mp hp with ⟨hlt, -⟩ | ⟨k, hk, -⟩
      · have hx := congrArg (fun l => l[i]?) hmap
        simp only [List.getElem?_map, hi, Option.map_some] at hx
        have hx := hx.symm
        rw [Option.map_eq_some_iff] at hx
        obtain ⟨⟨s, t⟩, hc, -⟩ := hx
        have hlen : ps.length = 1 := by
          have := List.length_pos_iff.mpr hne
          omega
        exact hmeet _ (List.mem_of_getElem? hc) ((C41_self_relations_partial hq m hsize doc' g' h1 i s t e ps hc hi hpe).mp hlen)
      · exact hturn doc' g' h1 e he ps hpe k hk

/-- **C40**, as far as it holds: if no relation joins an end to itself or a table to its own last or middle line, and no path
found by the router passes through a table, the module is drawn.
Missing for the full claim: those two conditions (the first fails for the modules of `C41_refuted`, the second for some modules
by C38, and then rendering may panic: `C40_refuted`). -/
theorem C40_rendering_never_panics_partial {q : Queue} {QI : List Entry → Prop} (hq : q.Lawful QI) (m : Module)
    (hsize : (placeNodes m.intoMir).2.size.height ≤ 1000000000)
    (hmeet : ∀ c ∈ connections [] m.entries, ¬ Meet (definitions m.entries) c.1 c.2)
    (hpass : ∀ doc' g', drawEdgePath q (laidOut m.intoMir) .new = .ok (doc', g') → ∀ e ∈ doc'.edges, ∀ ps, e.pathPoints = some ps →
      ¬ PassesThrough m.intoMir ps) : ∃ el, drawModule q m = .ok el := by
  refine drawn_unless_turn hq m hsize hmeet fun doc' g' h1 e he ps hpe k hk => hpass doc' g' h1 e he ps hpe ?_
  obtain ⟨a, b, c, d, r, ha, hb, hc, -, -, -, htab, hcr | hcr⟩ :=
    turnsBack_crosses hq _ (drawable_intoMir m) hsize doc' g' h1 e he ps hpe k hk
  · exact ⟨k, _, _, _, ha, hb, htab, hcr⟩
  · exact ⟨k + 1, _, _, _, hb, hc, htab, hcr⟩

/-- Two tables side by side whose columns are joined. -/
def neighbours : Module :=
  ⟨none, [.definition ⟨c!"a", [⟨c!"id", .int, none⟩]⟩, .definition ⟨c!"b", [⟨c!"x", .int, none⟩]⟩,
    .relation ⟨.field c!"a" c!"id", .field c!"b" c!"x"⟩]⟩

set_option maxRecDepth 100000 in
theorem neighbours_paths : pathsOf (drawEdgePath BinHeap.queue (laidOut neighbours.intoMir) .new) =
    some [some [⟨350, 205/2⟩, ⟨390, 205/2⟩, ⟨430, 205/2⟩]] := by decide +kernel

/-- The hypotheses of the theorem hold for `neighbours`, and so it is drawn. -/
example : ∃ el, drawModule BinHeap.queue neighbours = .ok el := by
  apply C40_rendering_never_panics_partial BinHeap.lawful
  · have : (placeNodes neighbours.intoMir).2.size.height = 170 := by decide +kernel
    rw [this]; norm_num
  · have : connections [] neighbours.entries = [(.column 0 0, .column 1 0)] := by decide +kernel
    rw [this]
    intro c hc
    simp only [List.mem_singleton] at hc
    subst hc
    simp [Meet]
  · intro doc' g' h e he ps hps
    have hp := neighbours_paths
    rw [h] at hp
    simp only [pathsOf, Option.some.injEq] at hp
    have hps' : some ps ∈ doc'.edges.map (·.pathPoints) := List.mem_map.mpr ⟨e, he, hps⟩
    rw [hp] at hps'
    simp only [List.mem_singleton, Option.some.injEq] at hps'
    subst hps'
    rintro ⟨k, a, b, r, ha, hb, hr, t, t0, t1, hin⟩
    obtain ⟨k', n', hk', rfl⟩ := (isTable_iff (drawable_intoMir neighbours) _).mp hr
    have hlc : lineCounts neighbours.intoMir = [2, 2] := by decide +kernel
    rw [hlc] at hk'
    have hk2 : k' = 0 ∨ k' = 1 := by
      have := (List.getElem?_eq_some_iff.mp hk').1
      simp only [List.length_cons, List.length_nil] at this
      omega
    obtain ⟨hx1, hx2, -, -⟩ := hin
    simp only [lerp, tableRect] at hx1 hx2
    have hk3 : k = 0 ∨ k = 1 := by
      have := (List.getElem?_eq_some_iff.mp hb).1
      simp only [List.length_cons, List.length_nil] at this
      omega
    rcases hk3 with rfl | rfl <;> simp at ha hb <;> subst ha <;> subst hb <;> rcases hk2 with rfl | rfl <;> norm_num at hx1 hx2 <;>
      linarith

/-- Four tables; a table of the first row is joined to the column of the table below it. -/
def turnaround : Module :=
  ⟨none, [.definition ⟨c!"a", [⟨c!"x", .int, none⟩]⟩, .definition ⟨c!"b", []⟩, .definition ⟨c!"c", []⟩,
    .definition ⟨c!"d", [⟨c!"y", .int, none⟩]⟩, .relation ⟨.entity c!"a", .field c!"d" c!"y"⟩]⟩

/-- The panic of a drawing that fails. -/
def panicOf (r : Except RenderError Element) : Option Panic :=
  match r with
  | .error (.panic p) => some p
  | _ => none

set_option maxRecDepth 1000000 in
/-- **C40 is false as stated**: rendering this module panics because the path turns back, although its relation joins two
different tables. -/
theorem C40_refuted : panicOf (drawModule BinHeap.queue turnaround) = some (.turnaround 2) := by decide +kernel

end Seiren
