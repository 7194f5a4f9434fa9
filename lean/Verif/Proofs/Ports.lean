import Verif.Props.Layout
/-! # `place_terminal_ports` as a list of port additions -/

namespace Seiren
open Spec

theorem flatMap_congr' {α β : Type} (l : List α) (f g : α → List β) (h : ∀ a ∈ l, f a = g a) :
    l.flatMap f = l.flatMap g := by
  induction l with
  | nil => rfl
  | cons a l ih =>
    rw [List.flatMap_cons, List.flatMap_cons, h a (by simp), ih (fun b hb => h b (by simp [hb]))]

/-- The ports added to node `id`, numbered from `k`. -/
def mkPorts (id : NodeId) (k : Nat) (ps : List (Rat × Rat × Orientation)) : List TerminalPort :=
  (ps.zipIdx k).map fun p => ⟨⟨id, p.2⟩, ⟨p.1.1, p.1.2.1⟩, p.1.2.2⟩

theorem addPorts_eq (id : NodeId) (ps : List (Rat × Rat × Orientation)) (n : NodeData) :
    addPorts id ps n = { n with terminalPorts := n.terminalPorts ++ mkPorts id n.terminalPorts.length ps } := by
  induction ps generalizing n with
  | nil => simp [addPorts, mkPorts]
  | cons p ps ih =>
    have : addPorts id (p :: ps) n = addPorts id ps (n.addTerminalPort id ⟨p.1, p.2.1⟩ p.2.2) := rfl
    rw [this, ih]
    simp [NodeData.addTerminalPort, mkPorts]

/-- Add ports to several nodes, in order. -/
def addPortsAll (doc : Document) (us : List (NodeId × List (Rat × Rat × Orientation))) : Document :=
  us.foldl (fun doc u => doc.modifyNode u.1 (addPorts u.1 u.2)) doc

theorem addPortsAll_append (doc : Document) (us vs : List (NodeId × List (Rat × Rat × Orientation))) :
    addPortsAll doc (us ++ vs) = addPortsAll (addPortsAll doc us) vs := by
  simp [addPortsAll]

/-- All ports added to node `i`. -/
def portsFor (us : List (NodeId × List (Rat × Rat × Orientation))) (i : NodeId) : List (Rat × Rat × Orientation) :=
  (us.filter (fun u => u.1 = i)).flatMap (·.2)

theorem addPortsAll_getElem (doc : Document) (us : List (NodeId × List (Rat × Rat × Orientation))) (i : NodeId) :
    (addPortsAll doc us).nodes[i]? = doc.nodes[i]?.map (addPorts i (portsFor us i)) ∧
      (addPortsAll doc us).edges = doc.edges ∧ (addPortsAll doc us).bodyId = doc.bodyId ∧
      (addPortsAll doc us).nodes.length = doc.nodes.length := by
  induction us generalizing doc with
  | nil => simp [addPortsAll, portsFor]; cases doc.nodes[i]? <;> rfl
  | cons u us ih =>
    have h := ih (doc.modifyNode u.1 (addPorts u.1 u.2))
    have e : addPortsAll doc (u :: us) = addPortsAll (doc.modifyNode u.1 (addPorts u.1 u.2)) us := rfl
    rw [e, h.1, h.2.1, h.2.2.1, h.2.2.2]
    refine ⟨?_, rfl, rfl, by simp [Document.modifyNode]⟩
    simp only [Document.modifyNode, List.getElem?_modify]
    by_cases hi : u.1 = i
    · subst hi
      simp only [if_true, portsFor, List.filter_cons, decide_true, List.flatMap_cons]
      cases doc.nodes[u.1]? with
      | none => rfl
      | some n => simp [addPorts]
    · simp only [hi, if_false, portsFor, List.filter_cons, decide_false]
      cases doc.nodes[i]? <;> rfl

theorem addPorts_rect (i : NodeId) (ps : List (Rat × Rat × Orientation)) (n : NodeData) :
    (addPorts i ps n).rect = n.rect := by rw [addPorts_eq]; rfl

theorem addPorts_children (i : NodeId) (ps : List (Rat × Rat × Orientation)) (n : NodeData) :
    (addPorts i ps n).children = n.children := by rw [addPorts_eq]

/-- The additions made for the lines of a table. -/
def linePortAssign (doc : Document) (count : Nat) (fields : List (NodeId × Nat)) :
    List (NodeId × List (Rat × Rat × Orientation)) :=
  fields.filterMap fun f => (doc.getNode f.1).bind fun n => n.rect.map fun r => (f.1, fieldPorts f.2 count r)

theorem placeFieldPorts_eq (doc : Document) (count : Nat) (fields : List (NodeId × Nat))
    (us : List (NodeId × List (Rat × Rat × Orientation))) :
    placeFieldPorts count (addPortsAll doc us) fields = addPortsAll doc (us ++ linePortAssign doc count fields) := by
  induction fields generalizing us with
  | nil => simp [placeFieldPorts, linePortAssign]
  | cons f fs ih =>
    obtain ⟨f, j⟩ := f
    have e : placeFieldPorts count (addPortsAll doc us) ((f, j) :: fs) =
        placeFieldPorts count (match (addPortsAll doc us).getNode f with
          | none => addPortsAll doc us
          | some n => match n.rect with
            | none => addPortsAll doc us
            | some r => (addPortsAll doc us).modifyNode f (addPorts f (fieldPorts j count r))) fs := rfl
    rw [e, Document.getNode, (addPortsAll_getElem doc us f).1]
    cases hn : doc.nodes[f]? with
    | none =>
      simp only [Option.map_none]
      rw [ih]
      simp [linePortAssign, Document.getNode, hn]
    | some n =>
      simp only [Option.map_some, addPorts_rect]
      cases hr : n.rect with
      | none => simp only; rw [ih]; simp [linePortAssign, Document.getNode, hn, hr]
      | some r =>
        simp only
        have e2 : (addPortsAll doc us).modifyNode f (addPorts f (fieldPorts j count r)) =
            addPortsAll doc (us ++ [(f, fieldPorts j count r)]) := by rw [addPortsAll_append]; rfl
        rw [e2, ih]
        simp [linePortAssign, Document.getNode, hn, hr]

/-- The additions made for one table. -/
def tablePortAssign (doc : Document) (t : NodeId) : List (NodeId × List (Rat × Rat × Orientation)) :=
  match doc.getNode t with
  | none => []
  | some n =>
    match n.rect with
    | none => []
    | some r => (t, fourPorts r) :: linePortAssign doc n.children.length n.children.zipIdx

theorem placeRecordPorts_eq (doc : Document) (t : NodeId) (us : List (NodeId × List (Rat × Rat × Orientation))) :
    placeRecordPorts (addPortsAll doc us) t = addPortsAll doc (us ++ tablePortAssign doc t) := by
  unfold placeRecordPorts tablePortAssign
  simp only [Document.getNode, (addPortsAll_getElem doc us t).1]
  cases hn : doc.nodes[t]? with
  | none => simp
  | some n =>
    simp only [Option.map_some, addPorts_rect, addPorts_children]
    cases hr : n.rect with
    | none => simp
    | some r =>
      simp only
      have e2 : (addPortsAll doc us).modifyNode t (addPorts t (fourPorts r)) =
          addPortsAll doc (us ++ [(t, fourPorts r)]) := by rw [addPortsAll_append]; rfl
      rw [e2, placeFieldPorts_eq]
      simp

theorem placeTerminalPorts_eq (doc : Document) :
    placeTerminalPorts doc = addPortsAll doc ((tables doc).flatMap (tablePortAssign doc)) := by
  have key : ∀ (l : List NodeId) (us : List (NodeId × List (Rat × Rat × Orientation))),
      l.foldl placeRecordPorts (addPortsAll doc us) = addPortsAll doc (us ++ l.flatMap (tablePortAssign doc)) := by
    intro l
    induction l with
    | nil => intro us; simp
    | cons t l ih => intro us; rw [List.foldl_cons, placeRecordPorts_eq, ih]; simp
  exact key _ []

theorem portsFor_of_mem (us : List (NodeId × List (Rat × Rat × Orientation))) (h : (us.map (·.1)).Nodup) (i : NodeId)
    (ps : List (Rat × Rat × Orientation)) (hm : (i, ps) ∈ us) : portsFor us i = ps := by
  have : us.filter (fun u => u.1 = i) = [(i, ps)] := by
    induction us with
    | nil => cases hm
    | cons u us ih =>
      rw [List.map_cons, List.nodup_cons] at h
      rw [List.mem_cons] at hm
      rcases hm with rfl | hm
      · simp only [List.filter_cons, decide_true, if_true]
        congr 1
        rw [List.filter_eq_nil_iff]
        intro v hv
        simp only [decide_eq_true_iff]
        intro hvi
        exact h.1 (List.mem_map.mpr ⟨v, hv, hvi⟩)
      · have hne : u.1 ≠ i := by
          rintro rfl
          exact h.1 (List.mem_map.mpr ⟨_, hm, rfl⟩)
        simp only [List.filter_cons, hne, decide_false]
        exact ih h.2 hm
  simp [portsFor, this]

theorem portsFor_of_not_mem (us : List (NodeId × List (Rat × Rat × Orientation))) (i : NodeId)
    (h : i ∉ us.map (·.1)) : portsFor us i = [] := by
  have : us.filter (fun u => u.1 = i) = [] := by
    rw [List.filter_eq_nil_iff]
    intro v hv hvi
    simp only [decide_eq_true_iff] at hvi
    exact h (List.mem_map.mpr ⟨v, hv, hvi⟩)
  simp [portsFor, this]

/-! ## On documents of tables -/

theorem childrenOf_placed (doc : Document) (i : NodeId) : childrenOf (placeNodes doc).1 i = childrenOf doc i := by
  rw [(placeNodes_eq doc).1, childrenOf, (setRects_getElem doc _ i).1, childrenOf]
  cases doc.nodes[i]? with
  | none => rfl
  | some n => simp only [Option.map_some, applyRect_children]

theorem tables_placed (doc : Document) : tables (placeNodes doc).1 = tables doc := by
  unfold tables
  rw [childrenOf_placed, (C24_touches_positions_only doc).2.2]

/-- A node's rectangle in the model and in the specification. -/
theorem rectOf_eq (doc : Document) (i : NodeId) : rectOf doc i = (doc.getNode i).bind NodeData.rect := by
  unfold rectOf Document.getNode NodeData.rect
  cases doc.nodes[i]? with
  | none => rfl
  | some n => cases h1 : n.origin <;> cases h2 : n.size <;> simp [h1, h2]

theorem linePorts_eq (doc : Document) (count : Nat) (ls : List NodeId) (k : Nat) (f : Nat → Rect)
    (h : ∀ (j : Nat) l, ls[j]? = some l → rectOf doc l = some (f (k + j))) :
    linePortAssign doc count (ls.zipIdx k) = (ls.zipIdx k).map fun p => (p.1, fieldPorts p.2 count (f p.2)) := by
  induction ls generalizing k with
  | nil => rfl
  | cons l ls ih =>
    have h0 := h 0 l rfl
    rw [rectOf_eq, Option.bind_eq_some_iff] at h0
    obtain ⟨n, hn, hr⟩ := h0
    have := ih (k + 1) (fun j l' hj => by
      have := h (j + 1) l' (by simpa using hj)
      rwa [show k + 1 + j = k + (j + 1) by omega])
    simp only [linePortAssign, List.zipIdx_cons, List.filterMap_cons, hn, Option.bind_some, hr, Option.map_some,
      List.map_cons] at this ⊢
    rw [this]
    rfl

/-- The expected additions for one table. -/
def tablePorts (doc : Document) (ns : List Nat) (t : NodeId) (k : Nat) : List (NodeId × List (Rat × Rat × Orientation)) :=
  (t, fourPorts (tableRect ns k (childrenOf doc t).length)) ::
    (childrenOf doc t).zipIdx.map fun p => (p.1, fieldPorts p.2 (childrenOf doc t).length (lineRect ns k p.2))

theorem portAssign_placed {doc : Document} (hd : Tabular doc) :
    (tables (placeNodes doc).1).flatMap (tablePortAssign (placeNodes doc).1) =
      (tables doc).zipIdx.flatMap fun p => tablePorts doc (lineCounts doc) p.1 p.2 := by
  rw [tables_placed]
  have h1 : (tables doc).flatMap (tablePortAssign (placeNodes doc).1) =
      (tables doc).zipIdx.flatMap (fun p => tablePortAssign (placeNodes doc).1 p.1) := by
    conv_lhs => rw [← List.zipIdx_map_fst 0 (tables doc)]
    rw [List.flatMap_map]
  rw [h1]
  apply flatMap_congr'
  rintro ⟨t, k⟩ hm
  have ht := List.mem_zipIdx_iff_getElem?.mp hm
  simp only at ht
  simp only
  have hr := rectOf_table hd k t ht
  rw [rectOf_eq, Option.bind_eq_some_iff] at hr
  obtain ⟨n, hn, hr⟩ := hr
  have hch : n.children = childrenOf doc t := by
    rw [← childrenOf_placed, childrenOf]
    rw [Document.getNode] at hn
    rw [hn]
  unfold tablePortAssign tablePorts
  rw [hn]
  simp only
  rw [hr]
  simp only [hch]
  congr 1
  apply linePorts_eq
  intro j l hl
  rw [Nat.zero_add]
  exact rectOf_line hd k j t l ht hl

theorem portAssign_ids {doc : Document} :
    (((tables doc).zipIdx.flatMap fun p => tablePorts doc (lineCounts doc) p.1 p.2).map (·.1)).Perm
      (tables doc ++ (tables doc).flatMap (childrenOf doc)) := by
  refine List.Perm.trans (List.Perm.of_eq ?_) (allAssign_ids doc)
  unfold allAssign
  rw [List.map_flatMap, List.map_flatMap]
  apply flatMap_congr'
  rintro ⟨t, k⟩ -
  simp [tablePorts, tableAssign, List.map_map, Function.comp_def]

/-- A laid-out document. -/
def laidOut (doc : Document) : Document := placeTerminalPorts (placeNodes doc).1

theorem laidOut_table {doc : Document} (hd : Tabular doc) (k : Nat) (t : NodeId) (ht : (tables doc)[k]? = some t)
    (n : NodeData) (hn : doc.nodes[t]? = some n) :
    (laidOut doc).nodes[t]? = some (addPorts t (fourPorts (tableRect (lineCounts doc) k n.children.length))
      (setRect (tableRect (lineCounts doc) k n.children.length) n)) := by
  have hch : childrenOf doc t = n.children := by simp [childrenOf, hn]
  rw [laidOut, placeTerminalPorts_eq, portAssign_placed hd, (addPortsAll_getElem _ _ t).1, placed_table hd k t ht n hn,
    portsFor_of_mem _ (portAssign_ids.nodup_iff.mpr hd.nodup) t
      (fourPorts (tableRect (lineCounts doc) k n.children.length))]
  · rfl
  · rw [List.mem_flatMap]
    exact ⟨(t, k), List.mem_zipIdx_iff_getElem?.mpr ht, by simp [tablePorts, hch]⟩

theorem laidOut_line {doc : Document} (hd : Tabular doc) (k j : Nat) (t l : NodeId) (ht : (tables doc)[k]? = some t)
    (hl : (childrenOf doc t)[j]? = some l) (n : NodeData) (hn : doc.nodes[l]? = some n) :
    (laidOut doc).nodes[l]? = some (addPorts l (fieldPorts j (childrenOf doc t).length (lineRect (lineCounts doc) k j))
      (setRect (lineRect (lineCounts doc) k j) n)) := by
  rw [laidOut, placeTerminalPorts_eq, portAssign_placed hd, (addPortsAll_getElem _ _ l).1,
    placed_line hd k j t l ht hl n hn,
    portsFor_of_mem _ (portAssign_ids.nodup_iff.mpr hd.nodup) l
      (fieldPorts j (childrenOf doc t).length (lineRect (lineCounts doc) k j))]
  · rfl
  · rw [List.mem_flatMap]
    refine ⟨(t, k), List.mem_zipIdx_iff_getElem?.mpr ht, ?_⟩
    simp only [tablePorts, List.mem_cons, List.mem_map]
    exact Or.inr ⟨(l, j), List.mem_zipIdx_iff_getElem?.mpr hl, rfl⟩

theorem laidOut_other {doc : Document} (hd : Tabular doc) (i : NodeId)
    (hi : i ∉ tables doc ++ (tables doc).flatMap (childrenOf doc)) :
    (laidOut doc).nodes[i]? = doc.nodes[i]? := by
  rw [laidOut, placeTerminalPorts_eq, portAssign_placed hd, (addPortsAll_getElem _ _ i).1, placed_other hd i hi,
    portsFor_of_not_mem]
  · cases doc.nodes[i]? <;> rfl
  · rwa [portAssign_ids.mem_iff]

theorem childrenOf_laidOut (doc : Document) (i : NodeId) : childrenOf (laidOut doc) i = childrenOf doc i := by
  rw [← childrenOf_placed doc i, laidOut, placeTerminalPorts_eq, childrenOf, (addPortsAll_getElem _ _ i).1, childrenOf]
  cases (placeNodes doc).1.nodes[i]? with
  | none => rfl
  | some n => simp only [Option.map_some, addPorts_children]

theorem laidOut_rest (doc : Document) : (laidOut doc).edges = doc.edges ∧ (laidOut doc).bodyId = doc.bodyId ∧
    (laidOut doc).nodes.length = doc.nodes.length := by
  have h1 := addPortsAll_getElem (placeNodes doc).1
    ((tables (placeNodes doc).1).flatMap (tablePortAssign (placeNodes doc).1)) 0
  have h2 := C24_touches_positions_only doc
  have h3 := congrArg List.length h2.1
  simp only [List.length_map] at h3
  rw [laidOut, placeTerminalPorts_eq]
  exact ⟨h1.2.1.trans h2.2.1, h1.2.2.1.trans h2.2.2, h1.2.2.2.trans h3⟩

theorem tables_laidOut (doc : Document) : tables (laidOut doc) = tables doc := by
  unfold tables
  rw [childrenOf_laidOut, (laidOut_rest doc).2.1]

end Seiren
