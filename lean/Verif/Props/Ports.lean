import Verif.Spec.Geometry
import Verif.Proofs.Ports
import Mathlib.Data.List.Nodup
/-! # C26, C27: terminal ports -/

namespace Seiren
open Spec

/-! ## C26 -/

/-- The ports of a node: location and orientation. -/
def Spec.portsOf (doc : Document) (id : NodeId) : List (Point × Orientation) :=
  match doc.nodes[id]? with
  | some n => n.terminalPorts.map fun p => (p.location, p.orientation)
  | none => []

/-- The orientations of the ports of line `j` of `count`. -/
def lineOrientations (j count : Nat) : List Orientation :=
  if count = 1 then [.up, .right, .down, .left]
  else if j = 0 then [.up, .right, .left]
  else if j = count - 1 then [.right, .down, .left]
  else [.right, .left]

theorem mkPorts_view (id : NodeId) (k : Nat) (ps : List (Rat × Rat × Orientation)) :
    (mkPorts id k ps).map (fun p => (p.location, p.orientation)) = ps.map fun p => ((⟨p.1, p.2.1⟩ : Point), p.2.2) := by
  induction ps generalizing k with
  | nil => rfl
  | cons p ps ih =>
    have := ih (k + 1)
    simp only [mkPorts, List.zipIdx_cons, List.map_cons] at this ⊢
    rw [this]

theorem fourPorts_view (r : Rect) : (fourPorts r).map (fun p => ((⟨p.1, p.2.1⟩ : Point), p.2.2)) =
    [Orientation.up, .right, .down, .left].map fun o => (sideMiddle r o, o) := rfl

theorem fieldPorts_view (j count : Nat) (r : Rect) :
    (fieldPorts j count r).map (fun p => ((⟨p.1, p.2.1⟩ : Point), p.2.2)) =
      (lineOrientations j count).map fun o => (sideMiddle r o, o) := by
  unfold fieldPorts lineOrientations
  split
  · rfl
  · split
    · rfl
    · split <;> rfl

theorem portsOf_table {doc : Document} (hd : Tabular doc) (hp : ∀ n ∈ doc.nodes, n.terminalPorts = []) (k : Nat)
    (t : NodeId) (ht : (tables doc)[k]? = some t) :
    portsOf (laidOut doc) t = [Orientation.up, .right, .down, .left].map fun o =>
      (sideMiddle (tableRect (lineCounts doc) k (childrenOf doc t).length) o, o) := by
  obtain ⟨n, r, hn, -⟩ := hd.isTable t (List.mem_of_getElem? ht)
  rw [portsOf, laidOut_table hd k t ht n hn]
  simp only [addPorts_eq, setRect, hp n (List.mem_of_getElem? hn), List.nil_append, mkPorts_view]
  rw [fourPorts_view]
  simp [childrenOf, hn]

theorem portsOf_line {doc : Document} (hd : Tabular doc) (hp : ∀ n ∈ doc.nodes, n.terminalPorts = []) (k j : Nat)
    (t l : NodeId) (ht : (tables doc)[k]? = some t) (hl : (childrenOf doc t)[j]? = some l) :
    portsOf (laidOut doc) l = (lineOrientations j (childrenOf doc t).length).map fun o =>
      (sideMiddle (lineRect (lineCounts doc) k j) o, o) := by
  obtain ⟨n, f, hn, -⟩ := hd.isLine t (List.mem_of_getElem? ht) l (List.mem_of_getElem? hl)
  rw [portsOf, laidOut_line hd k j t l ht hl n hn]
  simp only [addPorts_eq, setRect, hp n (List.mem_of_getElem? hn), List.nil_append, mkPorts_view]
  rw [fieldPorts_view]

theorem rectOf_laidOut (doc : Document) (i : NodeId) : rectOf (laidOut doc) i = rectOf (placeNodes doc).1 i := by
  rw [rectOf_eq, rectOf_eq, laidOut, placeTerminalPorts_eq, Document.getNode, (addPortsAll_getElem _ _ i).1,
    Document.getNode]
  cases (placeNodes doc).1.nodes[i]? with
  | none => rfl
  | some n => simp only [Option.map_some, Option.bind_some, addPorts_rect]

theorem mem_of_mem_view {doc : Document} {i : NodeId} {n : NodeData} (hn : doc.nodes[i]? = some n) (p : TerminalPort)
    (hp : p ∈ n.terminalPorts) : (p.location, p.orientation) ∈ portsOf doc i := by
  simp only [portsOf, hn, List.mem_map]
  exact ⟨p, hp, rfl⟩

/-- C26 for tables: a table has exactly four ports, one for each orientation, at the middle of that side. -/
theorem C26_table_ports (doc : Document) (hd : Tabular doc) (hp : ∀ n ∈ doc.nodes, n.terminalPorts = [])
    (t : NodeId) (ht : t ∈ tables doc) :
    ∃ r, rectOf (laidOut doc) t = some r ∧
      (portsOf (laidOut doc) t).Perm ([Orientation.up, .down, .left, .right].map fun o => (sideMiddle r o, o)) := by
  obtain ⟨k, hk⟩ := List.getElem?_of_mem ht
  refine ⟨_, by rw [rectOf_laidOut]; exact rectOf_table hd k t hk, ?_⟩
  rw [portsOf_table hd hp k t hk]
  apply List.Perm.map
  decide

/-- C26 for lines: a line has one port on its left and one on its right, the first line also one at its top, the last
also one at its bottom, each at the middle of the side, and no others. -/
theorem C26_line_ports (doc : Document) (hd : Tabular doc) (hp : ∀ n ∈ doc.nodes, n.terminalPorts = [])
    (t l : NodeId) (j : Nat) (ht : t ∈ tables doc) (hl : (childrenOf doc t)[j]? = some l) :
    ∃ (r : Rect) (os : List Orientation), rectOf (laidOut doc) l = some r ∧ portsOf (laidOut doc) l = os.map (fun o => (sideMiddle r o, o)) ∧
      os.Nodup ∧ .left ∈ os ∧ .right ∈ os ∧ (.up ∈ os ↔ j = 0) ∧ (.down ∈ os ↔ j + 1 = (childrenOf doc t).length) := by
  obtain ⟨k, hk⟩ := List.getElem?_of_mem ht
  refine ⟨_, lineOrientations j (childrenOf doc t).length, by rw [rectOf_laidOut]; exact rectOf_line hd k j t l hk hl,
    portsOf_line hd hp k j t l hk hl, ?_⟩
  have hj : j < (childrenOf doc t).length := (List.getElem?_eq_some_iff.mp hl).1
  generalize (childrenOf doc t).length = count at hj
  unfold lineOrientations
  split
  · subst count
    refine ⟨by decide, by decide, by decide, ?_, ?_⟩ <;> simp <;> omega
  · split
    · refine ⟨by decide, by decide, by decide, ?_, ?_⟩ <;> simp <;> omega
    · split
      · refine ⟨by decide, by decide, by decide, ?_, ?_⟩ <;> simp <;> omega
      · refine ⟨by decide, by decide, by decide, ?_, ?_⟩ <;> simp <;> omega

/-- The port ids of a node are its id and the position. -/
theorem mkPorts_ids (id : NodeId) (k : Nat) (ps : List (Rat × Rat × Orientation)) :
    (mkPorts id k ps).map (·.id) = (List.range' k ps.length).map fun j => ⟨id, j⟩ := by
  induction ps generalizing k with
  | nil => rfl
  | cons p ps ih =>
    have := ih (k + 1)
    simp only [mkPorts, List.zipIdx_cons, List.map_cons, List.length_cons, List.range'_succ] at this ⊢
    rw [this]

theorem laidOut_portIds {doc : Document} (hp : ∀ n ∈ doc.nodes, n.terminalPorts = []) (i : NodeId) (n : NodeData)
    (hn : (laidOut doc).nodes[i]? = some n) :
    n.terminalPorts.map (·.id) = (List.range n.terminalPorts.length).map fun j => ⟨i, j⟩ := by
  rw [laidOut, placeTerminalPorts_eq, (addPortsAll_getElem _ _ i).1, (placeNodes_eq doc).1,
    (setRects_getElem doc _ i).1] at hn
  cases h : doc.nodes[i]? with
  | none => rw [h] at hn; cases hn
  | some n0 =>
    rw [h] at hn
    simp only [Option.map_some, Option.some.injEq] at hn
    subst hn
    have h0 := hp n0 (List.mem_of_getElem? h)
    rw [addPorts_eq]
    simp only [applyRect_ports, h0, List.nil_append, mkPorts_ids, List.length_nil]
    rw [List.range_eq_range']
    simp [mkPorts]

/-- C26: port ids are unique in the document, and name the node they belong to. -/
theorem C26_port_ids_unique (doc : Document) (hp : ∀ n ∈ doc.nodes, n.terminalPorts = []) :
    (((laidOut doc).nodes.flatMap (·.terminalPorts)).map (·.id)).Nodup ∧
    ∀ (i : NodeId) n, (laidOut doc).nodes[i]? = some n → ∀ p ∈ n.terminalPorts, p.id.node = i := by
  have hids := fun i n => laidOut_portIds hp i n
  constructor
  · have key : ∀ (ns : List NodeData) (b : Nat), (∀ (i : Nat) n, ns[i]? = some n →
        n.terminalPorts.map (·.id) = (List.range n.terminalPorts.length).map fun j => (⟨b + i, j⟩ : TerminalPortId)) →
        ((ns.flatMap (·.terminalPorts)).map (·.id)).Nodup ∧
        ∀ p ∈ (ns.flatMap (·.terminalPorts)).map (·.id), b ≤ p.node := by
      intro ns
      induction ns with
      | nil => intro b _; simp
      | cons n ns ih =>
        intro b h
        have h0 := h 0 n rfl
        have ih' := ih (b + 1) (fun i n' hn' => by
          have := h (i + 1) n' (by simpa using hn')
          rw [this]; simp [show b + 1 + i = b + (i + 1) by omega])
        rw [List.flatMap_cons, List.map_append, List.nodup_append, h0]
        refine ⟨⟨?_, ih'.1, ?_⟩, ?_⟩
        · apply List.Nodup.map _ List.nodup_range
          intro a b hab
          simpa using hab
        · intro p hp q hq hpq
          subst hpq
          have := ih'.2 p hq
          rw [List.mem_map] at hp
          obtain ⟨j, -, rfl⟩ := hp
          simp only [Nat.add_zero] at this
          exact absurd this (Nat.not_succ_le_self b)
        · intro p hp
          rw [List.mem_append] at hp
          rcases hp with hp | hp
          · rw [List.mem_map] at hp
            obtain ⟨j, -, rfl⟩ := hp
            exact Nat.le_refl _
          · exact Nat.le_of_succ_le (ih'.2 p hp)
    refine (key (laidOut doc).nodes 0 (fun i n hn => ?_)).1
    rw [hids i n hn]
    simp
  · intro i n hn p hp
    have : p.id ∈ n.terminalPorts.map (·.id) := List.mem_map.mpr ⟨p, hp, rfl⟩
    rw [hids i n hn, List.mem_map] at this
    obtain ⟨j, -, hj⟩ := this
    rw [← hj]

/-- A document built from a module has no ports before they are placed, so the theorems apply to it. -/
theorem noPorts_intoMir (m : Module) : ∀ n ∈ m.intoMir.nodes, n.terminalPorts = [] := by
  obtain ⟨h, -⟩ := intoMir_nodes m
  have key : ∀ (b : Nat) (ds : List EntityDefinition), ∀ n ∈ nodesFrom b ds, n.terminalPorts = [] := by
    intro b ds
    induction ds generalizing b with
    | nil => intro n hn; cases hn
    | cons d ds ih =>
      intro n hn
      rw [nodesFrom, List.mem_append] at hn
      rcases hn with hn | hn
      · simp only [defNodes, List.cons_append, List.mem_cons, List.mem_append, List.mem_map,
          List.not_mem_nil, or_false] at hn
        rcases hn with rfl | ⟨f, -, rfl⟩ | rfl <;> rfl
      · exact ih _ n hn
  rw [h]
  intro n hn
  rw [List.mem_cons] at hn
  rcases hn with rfl | hn
  · rfl
  · exact key _ _ n hn

/-- The ports of table `a` of `fourTables` and of its two lines (the header is the first). -/
example : (tables fourTables.intoMir)[0]? = some 3 ∧
    portsOf (laidOut fourTables.intoMir) 3 =
      [(⟨200, 50⟩, .up), (⟨350, 85⟩, .right), (⟨200, 120⟩, .down), (⟨50, 85⟩, .left)] ∧
    portsOf (laidOut fourTables.intoMir) 1 = [(⟨200, 50⟩, .up), (⟨350, 135/2⟩, .right), (⟨50, 135/2⟩, .left)] ∧
    portsOf (laidOut fourTables.intoMir) 2 = [(⟨350, 205/2⟩, .right), (⟨200, 120⟩, .down), (⟨50, 205/2⟩, .left)] := by
  decide +kernel

/-! ## C27 -/

/-- C27 in part: a second call changes nothing but the port lists, and the ports it adds have the same places and
orientations as those that are there.  Missing: the second call does add them (see the refutation). -/
theorem C27_ports_again_partial (doc : Document) :
    let d1 := placeTerminalPorts doc
    let d2 := placeTerminalPorts d1
    d2.edges = d1.edges ∧ d2.bodyId = d1.bodyId ∧
      ∀ i : NodeId, rectOf d2 i = rectOf d1 i ∧ childrenOf d2 i = childrenOf d1 i ∧
        ∀ p, p ∈ portsOf d2 i ↔ p ∈ portsOf d1 i := by
  intro d1 d2
  have htab : tables d1 = tables doc := by
    simp only [d1, placeTerminalPorts_eq, tables, childrenOf, (addPortsAll_getElem _ _ _).1,
      (addPortsAll_getElem _ _ 0).2.2.1]
    cases doc.nodes[doc.bodyId]? with
    | none => rfl
    | some n => simp only [Option.map_some, addPorts_children]
  have hnode : ∀ i, (d1.getNode i).map (fun n => (n.rect, n.children)) =
      (doc.getNode i).map (fun n => (n.rect, n.children)) := by
    intro i
    simp only [d1, placeTerminalPorts_eq, Document.getNode, (addPortsAll_getElem _ _ i).1]
    cases doc.nodes[i]? with
    | none => rfl
    | some n => simp only [Option.map_some, addPorts_children, addPorts_rect]
  have hcases : ∀ i, (d1.getNode i = none ∧ doc.getNode i = none) ∨
      ∃ n n', d1.getNode i = some n ∧ doc.getNode i = some n' ∧ n.rect = n'.rect ∧ n.children = n'.children := by
    intro i
    have hi := hnode i
    cases h1 : d1.getNode i with
    | none =>
      cases h2 : doc.getNode i with
      | none => exact Or.inl ⟨rfl, rfl⟩
      | some n' => rw [h1, h2] at hi; cases hi
    | some n =>
      cases h2 : doc.getNode i with
      | none => rw [h1, h2] at hi; cases hi
      | some n' =>
        rw [h1, h2] at hi
        simp only [Option.map_some, Option.some.injEq, Prod.mk.injEq] at hi
        exact Or.inr ⟨n, n', rfl, rfl, hi.1, hi.2⟩
  have hline : ∀ c ls, linePortAssign d1 c ls = linePortAssign doc c ls := by
    intro c ls
    unfold linePortAssign
    congr 1
    funext f
    rcases hcases f.1 with ⟨h1, h2⟩ | ⟨n, n', h1, h2, h3, -⟩
    · rw [h1, h2]
    · rw [h1, h2]; simp only [Option.bind_some, h3]
  have htable : tablePortAssign d1 = tablePortAssign doc := by
    funext t
    unfold tablePortAssign
    rcases hcases t with ⟨h1, h2⟩ | ⟨n, n', h1, h2, h3, h4⟩
    · rw [h1, h2]
    · rw [h1, h2]; simp only [h3, h4, hline]
  have e1 : d1 = addPortsAll doc ((tables doc).flatMap (tablePortAssign doc)) := placeTerminalPorts_eq doc
  have e2 : d2 = addPortsAll d1 ((tables doc).flatMap (tablePortAssign doc)) := by
    simp only [d2]; rw [placeTerminalPorts_eq, htab, htable]
  generalize (tables doc).flatMap (tablePortAssign doc) = us at e1 e2
  have g2 := addPortsAll_getElem d1 us
  have g1 := addPortsAll_getElem doc us
  rw [← e2] at g2
  rw [← e1] at g1
  refine ⟨(g2 0).2.1, (g2 0).2.2.1, ?_⟩
  intro i
  have h2 := (g2 i).1
  have h1 := (g1 i).1
  cases hn : doc.nodes[i]? with
  | none =>
    rw [hn] at h1
    simp only [Option.map_none] at h1
    rw [h1] at h2
    simp only [Option.map_none] at h2
    simp [rectOf, childrenOf, portsOf, h1, h2]
  | some n =>
    rw [hn] at h1
    simp only [Option.map_some] at h1
    rw [h1] at h2
    simp only [Option.map_some] at h2
    refine ⟨?_, ?_, ?_⟩
    · rw [rectOf_eq, rectOf_eq, Document.getNode, Document.getNode, h1, h2]
      simp only [Option.bind_some, addPorts_rect]
    · simp only [childrenOf, h1, h2, addPorts_children]
    · intro p
      simp only [portsOf, h1, h2, addPorts_eq, List.map_append, mkPorts_view, List.mem_append]
      tauto

/-- C27 as stated is false whenever there is a placed table: the second call adds the ports of the table again. -/
theorem C27_ports_again_refuted (m : Module) (h : definitions m.entries ≠ []) :
    placeTerminalPorts (laidOut m.intoMir) ≠ laidOut m.intoMir := by
  intro heq
  have hd := tabular_intoMir m
  have hlen : 0 < (tables m.intoMir).length := by
    rw [tables_intoMir, recordIds_length]; exact List.length_pos_iff.mpr h
  obtain ⟨t, ht⟩ : ∃ t, (tables m.intoMir)[0]? = some t := ⟨_, List.getElem?_eq_getElem hlen⟩
  obtain ⟨n, r, hn, -⟩ := hd.isTable t (List.mem_of_getElem? ht)
  have hl := laidOut_table hd 0 t ht n hn
  have htab : tables (laidOut m.intoMir) = tables m.intoMir :=
    tables_laidOut _
  rw [placeTerminalPorts_eq, htab] at heq
  have h2 := (addPortsAll_getElem (laidOut m.intoMir)
    ((tables m.intoMir).flatMap (tablePortAssign (laidOut m.intoMir))) t).1
  rw [heq, hl] at h2
  simp only [Option.map_some, Option.some.injEq] at h2
  have h3 := congrArg (fun n : NodeData => n.terminalPorts.length) h2
  rw [addPorts_eq t (portsFor _ _)] at h3
  simp only [List.length_append, mkPorts, List.length_map, List.length_zipIdx] at h3
  have h4 : 0 < (portsFor ((tables m.intoMir).flatMap (tablePortAssign (laidOut m.intoMir))) t).length := by
    have hrect : ((laidOut m.intoMir).getNode t).bind NodeData.rect ≠ none := by
      rw [← rectOf_eq, rectOf_laidOut, rectOf_table hd 0 t ht]; simp
    have hmem : ∃ r, (t, fourPorts r) ∈ (tables m.intoMir).flatMap (tablePortAssign (laidOut m.intoMir)) := by
      cases hg : (laidOut m.intoMir).getNode t with
      | none => rw [hg] at hrect; exact absurd rfl hrect
      | some n' =>
        cases hr : n'.rect with
        | none => rw [hg] at hrect; exact absurd hr hrect
        | some r =>
          refine ⟨r, List.mem_flatMap.mpr ⟨t, List.mem_of_getElem? ht, ?_⟩⟩
          simp [tablePortAssign, hg, hr]
    obtain ⟨r, hr⟩ := hmem
    unfold portsFor
    rw [List.length_pos_iff_exists_mem]
    refine ⟨(r.midX, r.minY, .up), List.mem_flatMap.mpr ⟨_, List.mem_filter.mpr ⟨hr, by simp⟩, ?_⟩⟩
    simp [fourPorts]
  omega

example : definitions fourTables.entries ≠ [] ∧
    (portsOf (placeTerminalPorts (laidOut fourTables.intoMir)) 3).length = 8 := by decide +kernel

end Seiren
