import Verif.Proofs.StorageDraw
import Verif.Proofs.HoleHeap
import Verif.Props.Bounds
/-!
# C97: graphs and queues as they lie in memory
-/

namespace Seiren

namespace Spec

/-- What is done to a graph. -/
inductive GraphOp (N E : Type) where
  | node (w : N)
  | edge (a b : Nat) (w : E)

/-- The nodes added, in order. -/
def opNodes {N E : Type} (ops : List (GraphOp N E)) : List N := ops.filterMap fun | .node w => some w | .edge .. => none
/-- The ends of the edges added, in order. -/
def opEnds {N E : Type} (ops : List (GraphOp N E)) : List (Nat × Nat) := ops.filterMap fun | .edge a b _ => some (a, b) | .node _ => none
/-- The weights of the edges added, in order. -/
def opWeights {N E : Type} (ops : List (GraphOp N E)) : List E := ops.filterMap fun | .edge _ _ w => some w | .node _ => none

end Spec

open Spec
open Pg (endIndex EdgeRef Linked)

/-- Do all that is in the list, from the first on. -/
def Pg.run {N E : Type} : List (GraphOp N E) → Pg.Graph N E → Except Pg.Fault (Pg.Graph N E)
  | [], g => .ok g
  | .node w :: ops, g =>
    match g.addNode w with
    | .error e => .error e
    | .ok (g, _) => Pg.run ops g
  | .edge a b w :: ops, g =>
    match g.addEdge a b w with
    | .error e => .error e
    | .ok (g, _) => Pg.run ops g

section
variable {N E : Type}

theorem run_linked (ops : List (GraphOp N E)) {g g' : Pg.Graph N E} (h : Linked g) (hr : Pg.run ops g = .ok g') :
    Linked g' ∧ g'.nodeWeights = g.nodeWeights ++ opNodes ops ∧ g'.edgeWeights = g.edgeWeights ++ opWeights ops ∧ g'.hist = g.hist ++ opEnds ops := by
  induction ops generalizing g with
  | nil =>
    injection hr with hr
    subst hr
    exact ⟨h, by simp [opNodes], by simp [opWeights], by simp [opEnds]⟩
  | cons op ops ih =>
    cases op with
    | node w =>
      unfold Pg.run at hr
      split at hr
      · cases hr
      · rename_i g1 i ha
        obtain ⟨h1, -, h3, h4⟩ := h.addNode ha
        obtain ⟨h5, h6, h7, h8⟩ := ih h1 hr
        have e1 : g1.edgeWeights = g.edgeWeights := by simp [Pg.Graph.edgeWeights, h4]
        have e2 : g1.hist = g.hist := by simp [Pg.Graph.hist, h4]
        exact ⟨h5, by rw [h6, h3]; simp [opNodes], by rw [h7, e1]; simp [opWeights], by rw [h8, e2]; simp [opEnds]⟩
    | edge a b w =>
      unfold Pg.run at hr
      split at hr
      · cases hr
      · rename_i g1 i ha
        obtain ⟨h1, -, h3, h4, h5⟩ := h.addEdge ha
        obtain ⟨h6, h7, h8, h9⟩ := ih h1 hr
        exact ⟨h6, by rw [h7, h3]; simp [opNodes], by rw [h8, h4]; simp [opWeights], by rw [h9, h5]; simp [opEnds]⟩

/-- **C97, the lists of edges.** However a graph has been built by adding nodes and edges, its arrays hold what was added, in order, and
going through the linked lists of a node gives its edges: first those that start at the node, the newest first, and then, turned
around, those that only end there, the newest first. -/
theorem C97_lists (ops : List (GraphOp N E)) (g : Pg.Graph N E) (h : Pg.run ops .new = .ok g) :
    g.nodeWeights = opNodes ops ∧ g.edgeWeights = opWeights ops ∧ (∀ i, g.edgeEndpoints i = (opEnds ops)[i]?) ∧
    ∀ a, g.edgesOf a = incident (opEnds ops) a := by
  obtain ⟨h1, h2, h3, h4⟩ := run_linked ops Pg.linked_new h
  have e : g.hist = opEnds ops := h4
  refine ⟨h2, h3, fun i => ?_, fun a => ?_⟩
  · rw [← e, Pg.Graph.hist, List.getElem?_map]
    rfl
  · rw [h1.edgesOf_eq, e]

theorem mem_incident (hist : List (Nat × Nat)) (a : Nat) (e : EdgeRef) :
    e ∈ incident hist a ↔ e.source = a ∧ (hist[e.index]? = some (a, e.target) ∨ hist[e.index]? = some (e.target, a)) := by
  have hz : ∀ p i, (p, i) ∈ hist.zipIdx.reverse ↔ hist[i]? = some p := by
    intro p i
    rw [List.mem_reverse, List.mem_zipIdx_iff_getElem?]
  obtain ⟨i, s, t⟩ := e
  unfold incident
  simp only [List.mem_append, List.mem_filterMap, Prod.exists, hz]
  constructor
  · rintro (⟨x, y, k, hk, he⟩ | ⟨x, y, k, hk, he⟩)
    · split at he
      · rename_i hx
        injection he with he
        injection he with h1 h2 h3
        subst h1 h2 h3
        exact ⟨hx, .inl (by rw [← hx]; exact hk)⟩
      · cases he
    · split at he
      · rename_i hx
        injection he with he
        injection he with h1 h2 h3
        subst h1 h2 h3
        exact ⟨hx.1, .inr (by rw [← hx.1]; exact hk)⟩
      · cases he
  · rintro ⟨rfl, h | h⟩
    · exact .inl ⟨_, _, _, h, by simp⟩
    · by_cases ht : t = s
      · subst ht
        exact .inl ⟨_, _, _, h, by simp⟩
      · exact .inr ⟨_, _, _, h, by simp [ht]⟩

/-- **C97, every edge once.** The edges given for a node are exactly the edges with the node at one end, each with the node as its
source and the other end as its target, and none is given twice. -/
theorem C97_incident (ops : List (GraphOp N E)) (g : Pg.Graph N E) (h : Pg.run ops .new = .ok g) (a : Nat) :
    (∀ e : EdgeRef, e ∈ g.edgesOf a ↔
      e.source = a ∧ ((opEnds ops)[e.index]? = some (a, e.target) ∨ (opEnds ops)[e.index]? = some (e.target, a))) ∧
    ((g.edgesOf a).map EdgeRef.index).Nodup := by
  rw [(C97_lists ops g h).2.2.2 a]
  refine ⟨mem_incident _ a, ?_⟩
  have hz : (opEnds ops).zipIdx.reverse.Pairwise fun p p' => p.2 ≠ p'.2 := by
    rw [List.pairwise_reverse]
    have : ((opEnds ops).zipIdx.map Prod.snd).Nodup := by
      rw [List.zipIdx_map_snd]
      exact List.nodup_range'
    have := List.pairwise_map.mp this
    exact this.imp fun h => Ne.symm h
  unfold incident
  rw [List.map_append, List.nodup_append]
  have part : ∀ f : (Nat × Nat) × Nat → Option EdgeRef, (∀ p x, f p = some x → x.index = p.2) →
      (((opEnds ops).zipIdx.reverse.filterMap f).map EdgeRef.index).Nodup := by
    intro f hf
    refine List.pairwise_map.mpr (List.pairwise_filterMap.mpr (hz.imp ?_))
    intro p p' hp x hx y hy
    rw [hf p x hx, hf p' y hy]
    exact hp
  refine ⟨part _ ?_, part _ ?_, ?_⟩
  · intro p x hx
    split at hx
    · injection hx with hx; rw [← hx]
    · cases hx
  · intro p x hx
    split at hx
    · injection hx with hx; rw [← hx]
    · cases hx
  · intro i hi j hj hij
    subst hij
    obtain ⟨x, hx, rfl⟩ := List.mem_map.mp hi
    obtain ⟨y, hy, hxy⟩ := List.mem_map.mp hj
    obtain ⟨p, hp, hpx⟩ := List.mem_filterMap.mp hx
    obtain ⟨p', hp', hpy⟩ := List.mem_filterMap.mp hy
    split at hpx
    swap
    · cases hpx
    split at hpy
    swap
    · cases hpy
    rename_i h1 h2
    injection hpx with hpx
    injection hpy with hpy
    rw [← hpx, ← hpy] at hxy
    simp only at hxy
    have e1 := List.mem_zipIdx_iff_getElem?.mp (List.mem_reverse.mp hp)
    have e2 := List.mem_zipIdx_iff_getElem?.mp (List.mem_reverse.mp hp')
    rw [hxy, e1] at e2
    injection e2 with e2
    rw [e2] at h1
    exact h2.2 h1

theorem run_ok_iff (ops : List (GraphOp N E)) {g : Pg.Graph N E} (h : Linked g) :
    (∃ g', Pg.run ops g = .ok g') ↔ g.nodes.length + (opNodes ops).length ≤ endIndex ∧ g.edges.length + (opEnds ops).length ≤ endIndex ∧
      ∀ pre a b w post, ops = pre ++ .edge a b w :: post → a < g.nodes.length + (opNodes pre).length ∧ b < g.nodes.length + (opNodes pre).length := by
  induction ops generalizing g with
  | nil =>
    refine ⟨fun _ => ⟨by simpa [opNodes] using h.nodes, by simpa [opEnds] using h.edges, ?_⟩, fun _ => ⟨g, rfl⟩⟩
    intro pre a b w post he
    simp at he
  | cons op ops ih =>
    cases op with
    | node w =>
      have hlen : (opNodes (.node w :: ops : List (GraphOp N E))).length = (opNodes ops).length + 1 := by simp [opNodes]
      have hlen2 : opEnds (.node w :: ops : List (GraphOp N E)) = opEnds ops := by simp [opEnds]
      rw [hlen, hlen2]
      unfold Pg.run
      by_cases hl : g.nodes.length < endIndex
      · obtain ⟨g1, hg⟩ := Pg.addNode_ok g w hl
        obtain ⟨h1, -, h3, h4⟩ := h.addNode hg
        have hn : g1.nodes.length = g.nodes.length + 1 := by
          have := congrArg List.length h3
          simpa [Pg.Graph.nodeWeights] using this
        rw [hg]
        simp only
        rw [ih h1, hn, h4]
        constructor
        · rintro ⟨a1, a2, a3⟩
          refine ⟨by omega, a2, ?_⟩
          intro pre a b w' post he
          cases pre with
          | nil => simp at he
          | cons x pre =>
            simp only [List.cons_append, List.cons.injEq] at he
            obtain ⟨rfl, he⟩ := he
            have := a3 pre a b w' post he
            have e : (opNodes (.node w :: pre : List (GraphOp N E))).length = (opNodes pre).length + 1 := by simp [opNodes]
            rw [e]
            omega
        · rintro ⟨a1, a2, a3⟩
          refine ⟨by omega, a2, ?_⟩
          intro pre a b w' post he
          have := a3 (.node w :: pre) a b w' post (by rw [he]; rfl)
          have e : (opNodes (.node w :: pre : List (GraphOp N E))).length = (opNodes pre).length + 1 := by simp [opNodes]
          rw [e] at this
          omega
      · have he : g.nodes.length = endIndex := le_antisymm h.nodes (by omega)
        have : g.addNode w = .error .full := by simp [Pg.Graph.addNode, he]
        rw [this]
        constructor
        · rintro ⟨_, hx⟩
          cases hx
        · rintro ⟨hx, -⟩
          omega
    | edge a b w =>
      have hlen : opNodes (.edge a b w :: ops : List (GraphOp N E)) = opNodes ops := by simp [opNodes]
      have hlen2 : (opEnds (.edge a b w :: ops : List (GraphOp N E))).length = (opEnds ops).length + 1 := by simp [opEnds]
      rw [hlen, hlen2]
      unfold Pg.run
      by_cases hl : g.edges.length < endIndex ∧ a < g.nodes.length ∧ b < g.nodes.length
      · obtain ⟨hl, hla, hlb⟩ := hl
        obtain ⟨g1, hg⟩ := Pg.addEdge_ok g w hl hla hlb
        obtain ⟨h1, -, h3, h4, -⟩ := h.addEdge hg
        have hn : g1.nodes.length = g.nodes.length := by
          have := congrArg List.length h3
          simpa [Pg.Graph.nodeWeights] using this
        have hm : g1.edges.length = g.edges.length + 1 := by
          have := congrArg List.length h4
          simpa [Pg.Graph.edgeWeights] using this
        rw [hg]
        simp only
        rw [ih h1, hn, hm]
        constructor
        · rintro ⟨a1, a2, a3⟩
          refine ⟨a1, by omega, ?_⟩
          intro pre a' b' w' post he
          cases pre with
          | nil =>
            simp only [List.nil_append, List.cons.injEq, GraphOp.edge.injEq] at he
            obtain ⟨⟨rfl, rfl, -⟩, -⟩ := he
            omega
          | cons x pre =>
            simp only [List.cons_append, List.cons.injEq] at he
            obtain ⟨rfl, he⟩ := he
            have := a3 pre a' b' w' post he
            have e : opNodes (.edge a b w :: pre : List (GraphOp N E)) = opNodes pre := by simp [opNodes]
            rw [e]
            omega
        · rintro ⟨a1, a2, a3⟩
          refine ⟨a1, by omega, ?_⟩
          intro pre a' b' w' post he
          have := a3 (.edge a b w :: pre) a' b' w' post (by rw [he]; rfl)
          have e : opNodes (.edge a b w :: pre : List (GraphOp N E)) = opNodes pre := by simp [opNodes]
          rw [e] at this
          exact this
      · have hx : ∃ f, g.addEdge a b w = .error f := by
          unfold Pg.Graph.addEdge
          simp only
          by_cases hl1 : g.edges.length = endIndex
          · rw [if_pos hl1]; exact ⟨_, rfl⟩
          · rw [if_neg hl1]
            have := h.edges
            by_cases ha : a < g.nodes.length
            · have hb : ¬ b < g.nodes.length := fun hb => hl ⟨by omega, ha, hb⟩
              rw [List.getElem?_eq_none (l := g.nodes) (i := b) (by omega)]
              cases g.nodes[a]? <;> exact ⟨_, rfl⟩
            · rw [List.getElem?_eq_none (l := g.nodes) (i := a) (by omega)]
              exact ⟨_, rfl⟩
        obtain ⟨f, hx⟩ := hx
        rw [hx]
        constructor
        · rintro ⟨_, hx⟩
          cases hx
        · rintro ⟨a1, a2, a3⟩
          have := a3 [] a b w ops rfl
          have e : (opNodes ([] : List (GraphOp N E))).length = 0 := rfl
          rw [e] at this
          exact absurd ⟨by omega, by omega, by omega⟩ hl

/-- **C97, when it works.** Adding succeeds exactly if there are at most 2^32 - 1 nodes and as many edges, and every edge joins
nodes that have been added before it. -/
theorem C97_room (ops : List (GraphOp N E)) :
    (∃ g, Pg.run ops .new = .ok g) ↔ (opNodes ops).length ≤ 2 ^ 32 - 1 ∧ (opEnds ops).length ≤ 2 ^ 32 - 1 ∧
      ∀ pre a b w post, ops = pre ++ .edge a b w :: post → a < (opNodes pre).length ∧ b < (opNodes pre).length := by
  have := run_ok_iff ops (g := .new) Pg.linked_new
  rw [this]
  have e1 : (Pg.Graph.new : Pg.Graph N E).nodes.length = 0 := rfl
  have e2 : (Pg.Graph.new : Pg.Graph N E).edges.length = 0 := rfl
  rw [e1, e2]
  simp only [Nat.zero_add]
  rfl

end

/-! Three nodes, five edges: one of them from a node to itself, two between the same nodes. -/
def storageOps : List (GraphOp Nat Nat) :=
  [.node 10, .node 11, .edge 0 1 20, .node 12, .edge 1 1 21, .edge 2 1 22, .edge 1 0 23, .edge 0 2 24]

example : (match Pg.run storageOps .new with
    | .ok g => some (g.edgesOf 1, g.edgesOf 0, g.nodes.map Pg.Node.next, g.edges.map Pg.Edge.next)
    | .error _ => none) =
    some ([⟨3, 1, 0⟩, ⟨1, 1, 1⟩, ⟨2, 1, 2⟩, ⟨0, 1, 0⟩], [⟨4, 0, 2⟩, ⟨0, 0, 1⟩, ⟨3, 0, 1⟩],
      [(4, 3), (3, 2), (2, 4)], [(4294967295, 4294967295), (4294967295, 0), (4294967295, 1), (1, 4294967295), (0, 4294967295)]) := by
  decide +kernel

example : incident (opEnds storageOps) 1 = [⟨3, 1, 0⟩, ⟨1, 1, 1⟩, ⟨2, 1, 2⟩, ⟨0, 1, 0⟩] := by decide

/-! ## The queue -/

/-- **C97, the queue.** Moving a hole through the array, as std does, and exchanging entries, as the other models do, give the same
array, whatever the array holds. -/
theorem C97_heap (h : List Entry) (e : Entry) : HoleHeap.push h e = BinHeap.push h e ∧ HoleHeap.pop h = BinHeap.pop h :=
  ⟨HoleHeap.push_eq h e, HoleHeap.pop_eq h⟩

example : HoleHeap.pop (HoleHeap.push (HoleHeap.push (HoleHeap.push [] (5, 1)) (3, 2)) (3, 4)) = some ((3, 2), [(3, 4), (5, 1)]) := by decide

/-! ## Documents and drawings -/

/-- **C97, documents.** `into_mir` succeeds exactly if its document has at most 2^32 - 1 nodes and edges; the stored document then
holds the nodes and edges of the other models, and the ends stored with an edge are the ids in its weight. -/
theorem C97_document (m : Module) :
    ((∃ p, m.intoMirPg = .ok p) ↔ m.intoMir.nodes.length ≤ 2 ^ 32 - 1 ∧ m.intoMir.edges.length ≤ 2 ^ 32 - 1) ∧
    ∀ p, m.intoMirPg = .ok p → p.plain = m.intoMir ∧ p.edgeIds = List.range m.intoMir.edges.length ∧
      ∀ i, p.edgeEndpoints i = m.intoMir.edges[i]?.map fun e => (e.sourceId, e.targetId) := by
  rcases intoMirPg_spec m with ⟨p, h1, h2, h3⟩ | ⟨h1, h2⟩
  · refine ⟨⟨fun _ => h3 ▸ h2.fits, fun _ => ⟨p, h1⟩⟩, ?_⟩
    intro p' hp'
    rw [h1] at hp'
    injection hp' with hp'
    subst hp'
    refine ⟨h3, by rw [← h3, plain_edges_length]; rfl, fun i => ?_⟩
    have h4 := congrArg (·[i]?) h2.ends
    simp only [Pg.Graph.hist, List.getElem?_map] at h4
    rw [← h3]
    exact h4
  · refine ⟨⟨?_, fun h => absurd h h2⟩, ?_⟩
    · rintro ⟨p, hp⟩
      rw [h1] at hp
      cases hp
    · intro p hp
      rw [h1] at hp
      cases hp

theorem drawModulePg_eq (w : Nat → Nat) (hw : FitsU32 w) {q : Queue} {QI : List Entry → Prop} (hq : q.Lawful QI) (m : Module) (hm : m.intoMir.Fits)
    (hs : Scene (lineCounts m.intoMir) (laidOut m.intoMir))
    (hf : ∀ g', buildRouteGraph (laidOut m.intoMir) .new = .ok g' → g'.Fits) :
    drawModulePg w q m = noFault (drawModule q m) := by
  rcases intoMirPg_spec m with ⟨p, h1, h2, h3⟩ | ⟨_, h⟩
  swap
  · exact absurd hm h
  rw [drawModule_eq]
  unfold drawModulePg
  rw [h1]
  simp only
  obtain ⟨h4, h5⟩ := updateNodes_spec h2 (fun d => placeTerminalPorts (placeNodes d).1)
    ((framed_placeNodesR id _).trans (framed_placeTerminalPortsR id _))
  rw [h3] at h5 ⊢
  obtain ⟨g, hg⟩ := hs.graph
  have hb := hg.built
  have hfit := hf _ hb
  generalize connectNearest (laidOut m.intoMir) g = g1 at hb hfit
  rw [← buildOf_exact, show laidOut m.intoMir = placeTerminalPorts (placeNodes m.intoMir).1 from rfl, ← h5] at hb
  have := drawEdgePathPg_eq Coordinates.exact w q local_exact h4 hb hfit
  have hM : drawEdgePathM w buildRouteGraph edgeCost q (laidOut m.intoMir) .new = drawEdgePath q (laidOut m.intoMir) .new := by
    unfold drawEdgePathM drawEdgePath
    rw [hg.built]
    simp only
    rw [hs.collectPathsM_eq hw hq hg edgeCost (fun _ _ _ => rfl) _ (fun _ he => he)]
    rfl
  rw [h5, buildOf_exact, costOf_exact, show placeTerminalPorts (placeNodes m.intoMir).1 = laidOut m.intoMir from rfl, hM] at this
  cases hd : drawEdgePath q (laidOut m.intoMir) .new with
  | error e =>
    rw [hd] at this
    simp only at this
    rw [this]
    rfl
  | ok r =>
    obtain ⟨d', g''⟩ := r
    rw [hd] at this
    obtain ⟨p', pg, h6, h7, -⟩ := this
    rw [h6]
    simp only
    rw [h7]
    cases render (some (placeNodes m.intoMir).2) d' <;> rfl

theorem source_fits {src : Str} {m : Module} (h : Contains src m) (hn : src.length ≤ 47000000) :
    m.intoMir.Fits ∧ ∀ g', buildRouteGraph (laidOut m.intoMir) .new = .ok g' → g'.Fits := by
  have h1 := C88_sizes src m h
  refine ⟨⟨?_, ?_⟩, ?_⟩
  · exact h1.2.2.1.trans (hn.trans (by decide))
  · have := h1.2.2.2
    unfold endIndex
    omega
  · intro g' hg
    obtain ⟨doc', g'', hd, -⟩ := C32_module m (C88_height src m h hn)
    have : g'' = g' := by
      unfold drawEdgePath at hd
      rw [hg] at hd
      simp only at hd
      split at hd
      · cases hd
      · split at hd
        · cases hd
        · injection hd with hd
          injection hd with _ hd
          exact hd.symm
    subst this
    have := C88_route_graph BinHeap.lawful src m h hn doc' g'' hd
    exact ⟨by unfold endIndex; omega, by unfold endIndex; omega⟩

/-- **C97, the drawing.** For a source of at most 47 million characters the program, run on petgraph's arrays with their linked lists,
on std's heap with its hole, and with 32-bit path costs, draws what the other models draw: no index overflows, none is out of bounds. -/
theorem C97_drawing (w : Nat → Nat) (hw : ∀ n < 4294967296, w n = n) (src : Str) (m : Module) (h : Contains src m)
    (hn : src.length ≤ 47000000) :
    drawModulePg w HoleHeap.queue m = noFault (drawModule BinHeap.queue m) := by
  obtain ⟨h1, h2⟩ := source_fits h hn
  rw [HoleHeap.queue_eq]
  exact drawModulePg_eq w hw BinHeap.lawful m h1 (scene_laidOut (drawable_intoMir m) (C88_height src m h hn)) h2

/-- **C97, nodes of the route graph.** `_add_node` on the storage does what it does in the other models, on every graph: it panics exactly
when they do, with the same panic; otherwise it gives the same node of the same graph, or finds no room for it if there are 2^32 - 1 nodes already. -/
theorem C97_add_node (g : PgRouteGraph) (loc : Point) (o : Option Orientation) :
    (∀ p, g.plain.addNodeAt loc o = .error p → g.addNodeAt loc o = .error (.panic p)) ∧
    ∀ g' i, g.plain.addNodeAt loc o = .ok (g', i) →
      (g' = g.plain → g.addNodeAt loc o = .ok (g, i)) ∧
      (g' ≠ g.plain → g.plain.nodes.length = 2 ^ 32 - 1 → g.addNodeAt loc o = .error .full) ∧
      (g' ≠ g.plain → g.plain.nodes.length ≠ 2 ^ 32 - 1 → ∃ p, g.addNodeAt loc o = .ok (p, i) ∧ p.plain = g') := by
  unfold RouteGraph.addNodeAt PgRouteGraph.addNodeAt
  rw [indexed_eq]
  unfold RouteGraph.indexed
  rw [List.find?_map]
  have hc : ((fun p : RouteNodeId × RouteNodeData => decide (p.2.location = loc)) ∘ fun p : RouteNodeData × Nat => (p.2, p.1)) =
      fun p => decide (p.1.location = loc) := rfl
  rw [hc]
  cases g.plain.nodes.zipIdx.find? fun p => decide (p.1.location = loc) with
  | some x =>
    obtain ⟨node, k⟩ := x
    simp only [Option.map_some]
    by_cases ho : node.orientation ≠ o
    · simp only [if_pos ho]
      exact ⟨fun p hp => by cases hp; rfl, fun _ _ h => by cases h⟩
    · simp only [if_neg ho]
      refine ⟨fun p hp => (by cases hp), fun g' i h => ?_⟩
      cases h
      exact ⟨fun _ => rfl, fun h => absurd rfl h, fun h => absurd rfl h⟩
  | none =>
    simp only [Option.map_none]
    refine ⟨fun p hp => (by cases hp), fun g' i h => ?_⟩
    cases h
    have hne : ({ g.plain with nodes := g.plain.nodes ++ [⟨loc, o⟩] } : RouteGraph) ≠ g.plain := fun h => by
      have := congrArg (fun g : RouteGraph => g.nodes.length) h
      simp only [List.length_append, List.length_singleton] at this
      omega
    refine ⟨fun h => absurd h hne, fun _ hl => ?_, fun _ hl => ?_⟩
    · rw [routePlain_nodes] at hl
      rw [Pg.Graph.addNode, if_pos (by rw [hl]; rfl)]
    · rw [routePlain_nodes] at hl
      rw [Pg.Graph.addNode, if_neg (by rw [show Pg.endIndex = 2 ^ 32 - 1 from rfl]; exact hl)]
      refine ⟨⟨{ g.graph with nodes := g.graph.nodes ++ [⟨⟨loc, o⟩, (Pg.endIndex, Pg.endIndex)⟩] }, g.terminalPorts⟩, ?_, ?_⟩
      · simp only [routePlain_nodes]
      · simp [PgRouteGraph.plain, Pg.Graph.nodeWeights, Pg.Graph.edgeWeights]

/-- A node at the same place with another orientation is a panic. -/
example : (PgRouteGraph.mk ⟨[⟨⟨⟨1, 2⟩, none⟩, (Pg.endIndex, Pg.endIndex)⟩], []⟩ []).addNodeAt ⟨1, 2⟩ (some .up) = .error (.panic .orientationConflict) := by
  decide +kernel

/-- **C97, the machine.** For a source of at most 199000 characters with a table, the program run on petgraph's arrays and std's heap, with
32-bit path costs and with every floating point operation rounded to 32 bits, draws what the exact model draws. -/
theorem C97_machine (ovf : Rat → Rat) (w : Nat → Nat) (hw : ∀ n < 4294967296, w n = n) (src : Str) (m : Module) (h : Contains src m)
    (hn : src.length ≤ 199000) (hne : definitions m.entries ≠ []) :
    drawModulePgM (roundOr ovf) sqrtF32 w HoleHeap.queue m = noFault (drawModule BinHeap.queue m) := by
  have hh : picHeight (lineNumbers (definitions m.entries)) ≤ 2 ^ 22 := by
    refine (C88_sizes src m h).2.1.trans ?_
    have : (src.length : Rat) ≤ 199000 := by exact_mod_cast hn
    norm_num
    linarith
  obtain ⟨h1, h2⟩ := source_fits h (hn.trans (by norm_num))
  rw [HoleHeap.queue_eq, ← drawModuleM_eq ovf w hw BinHeap.lawful m hne hh]
  have htlen : (tables m.intoMir).length = (definitions m.entries).length := by rw [tables_intoMir, recordIds_length]
  have htne : tables m.intoMir ≠ [] := by
    intro h0
    rw [h0] at htlen
    exact hne (List.length_eq_zero_iff.mp htlen.symm)
  have hdh : diagramHeight m.intoMir ≤ 2 ^ 22 := by
    have hv := placed_viewBox (tabular_intoMir m) htne
    have : (placeNodes m.intoMir).2.size.height = diagramHeight m.intoMir := by rw [hv]; rfl
    rw [← this, hv]
    simp only
    rw [lineCounts_intoMir m, htlen]
    have e : (lineNumbers (definitions m.entries)).length = (definitions m.entries).length := by simp [lineNumbers]
    rw [picHeight, e] at hh
    exact hh
  have H := rounding_f32 ovf
  obtain ⟨-, e2⟩ := placed_exact H.exact m htne hdh
  obtain ⟨hscene, hlow⟩ := scene_of_height m.intoMir (drawable_intoMir m) htne hdh
  obtain ⟨g, hg⟩ := hscene.graph
  have hb : buildRouteGraphR (roundOr ovf) (placeTerminalPortsR (roundOr ovf) (placeNodesR (roundOr ovf) m.intoMir).1) .new =
      .ok (connectNearest (laidOut m.intoMir) g) := by
    rw [e2, ← hg.built]
    exact buildRouteGraphR_eq H hscene hlow
  exact drawModulePgM_eq _ _ w _ m h1 hb (h2 _ hg.built)

/-! A source with a relation, drawn on the stored graphs. -/
def storageSource : Str := c!"erd {\na { id int }\nb { x int }\nc { id int; y int }\na.id o--o c.y\n}"

set_option maxRecDepth 1000000 in
theorem storageSource_contains : Contains storageSource threeTables := (parse_contains _ _).mp (by decide +kernel)

set_option maxRecDepth 1000000 in
example : storageSource.length ≤ 199000 ∧ definitions threeTables.entries ≠ [] ∧
    (match threeTables.intoMirPg with
      | .ok p =>
        match drawEdgePathPg Coordinates.exact (· % 4294967296) HoleHeap.queue (p.updateNodes fun d => placeTerminalPorts (placeNodes d).1) .new with
        | .ok (p, g) => some (p.graph.edgeWeights.map EdgeData.pathPoints, g.graph.nodes.length, g.graph.edges.length, g.graph.edgesOf 0)
        | .error _ => none
      | .error _ => none) =
    some ([some [⟨350, 205 / 2⟩, ⟨390, 205 / 2⟩, ⟨390, 160⟩, ⟨770, 160⟩, ⟨770, 275 / 2⟩, ⟨810, 275 / 2⟩]], 22, 25, [⟨1, 0, 12⟩, ⟨0, 0, 1⟩]) := by
  decide +kernel

end Seiren
