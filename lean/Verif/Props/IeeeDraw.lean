import Verif.Proofs.IeeeRender
import Verif.Props.Bounds
/-! # C96: layout, routing and rendering on all values of `f32` -/

namespace Seiren
open Spec

/-- Neither `NaN` nor an infinity nor the negative zero. -/
def Spec.Ordinary : Fl → Prop
  | .nan => False
  | .inf _ => False
  | .zero s => s = false
  | .fin _ => True

/-- Both coordinates of a point. -/
def Spec.OrdinaryPoint (p : FlPoint) : Prop := Ordinary p.x ∧ Ordinary p.y

/-- Both sides. -/
def Spec.OrdinarySize (s : FlSize) : Prop := Ordinary s.width ∧ Ordinary s.height

theorem ordinary_ofNum (q : Rat) : Ordinary (ofNum q) := by
  unfold ofNum
  split
  · exact rfl
  · trivial

theorem ordinary_point (p : Point) : OrdinaryPoint p.fl := ⟨ordinary_ofNum _, ordinary_ofNum _⟩
theorem ordinary_size (s : Size) : OrdinarySize s.fl := ⟨ordinary_ofNum _, ordinary_ofNum _⟩

/-! ## The document of a module -/

theorem addFields_edges (n : Str) (fs : List EntityField) (doc : Document) (paths : NodePaths) : (addFields n fs doc paths).1.edges = doc.edges := by
  induction fs generalizing doc paths with
  | nil => rfl
  | cons f fs ih =>
    unfold addFields
    simp only
    rw [ih]
    rfl

theorem addDefinition_edges (d : EntityDefinition) (doc : Document) (paths : NodePaths) : (addDefinition d doc paths).1.edges = doc.edges := by
  unfold addDefinition
  simp only
  exact addFields_edges d.name d.fields _ _

/-- **C96.** The document that a module is turned into has no coordinates, so that nothing is lost by making its nodes anew. -/
theorem C96_no_coordinates (m : Module) :
    (∀ n ∈ m.intoMir.nodes, n.origin = none ∧ n.size = none ∧ n.terminalPorts = []) ∧ (∀ e ∈ m.intoMir.edges, e.pathPoints = none) := by
  constructor
  · obtain ⟨h, -⟩ := intoMir_nodes m
    have key : ∀ (b : Nat) (ds : List EntityDefinition), ∀ n ∈ nodesFrom b ds, n.origin = none ∧ n.size = none ∧ n.terminalPorts = [] := by
      intro b ds
      induction ds generalizing b with
      | nil => intro n hn; cases hn
      | cons d ds ih =>
        intro n hn
        rw [nodesFrom, List.mem_append] at hn
        rcases hn with hn | hn
        · simp only [defNodes, List.cons_append, List.mem_cons, List.mem_append, List.mem_map, List.not_mem_nil, or_false] at hn
          rcases hn with rfl | ⟨f, -, rfl⟩ | rfl <;> exact ⟨rfl, rfl, rfl⟩
        · exact ih _ n hn
    rw [h]
    intro n hn
    rcases List.mem_cons.mp hn with rfl | hn
    · exact ⟨rfl, rfl, rfl⟩
    · exact key _ _ n hn
  · have key : ∀ (es : List ModuleEntry) (st : Document × NodePaths), (∀ e ∈ st.1.edges, e.pathPoints = none) →
        ∀ e ∈ (es.foldl addEntryMir st).1.edges, e.pathPoints = none := by
      intro es
      induction es with
      | nil => exact fun st h => h
      | cons entry es ih =>
        intro st h
        rw [List.foldl_cons]
        refine ih _ ?_
        cases entry with
        | definition d =>
          show ∀ e ∈ (addDefinition d st.1 st.2).1.edges, _
          rw [addDefinition_edges]
          exact h
        | relation r =>
          show ∀ e ∈ (addRelation r st.1 st.2).edges, _
          unfold addRelation
          split
          · exact h
          split
          · exact h
          · intro e he
            rcases List.mem_append.mp he with he | he
            · exact h e he
            · rw [List.mem_singleton.mp he]
    exact key m.entries (Document.new, []) (by nofun)

theorem ofMir_eq (m : Module) : FlDocument.ofMir m.intoMir = m.intoMir.fl := by
  obtain ⟨h1, h2⟩ := C96_no_coordinates m
  unfold FlDocument.ofMir Document.fl
  have e1 : (m.intoMir.nodes.map fun n => ({ kind := n.kind, children := n.children } : FlNodeData)) = m.intoMir.nodes.map NodeData.fl := by
    refine List.map_congr_left fun n hn => ?_
    obtain ⟨a, b, c⟩ := h1 n hn
    unfold NodeData.fl
    rw [a, b, c]
    rfl
  have e2 : (m.intoMir.edges.map fun e => ({ sourceId := e.sourceId, targetId := e.targetId } : FlEdgeData)) = m.intoMir.edges.map EdgeData.fl := by
    refine List.map_congr_left fun e he => ?_
    unfold EdgeData.fl
    rw [h2 e he]
    rfl
  rw [e1, e2]

theorem docNum_intoMir (m : Module) : DocNum m.intoMir := by
  intro n hn
  obtain ⟨a, b, c⟩ := (C96_no_coordinates m).1 n hn
  refine ⟨?_, ?_, ?_⟩
  · rw [a]; nofun
  · rw [b]; nofun
  · rw [c]; nofun

theorem bodyChildren_tables (d : Document) : d.bodyChildren = tables d := by
  unfold Document.bodyChildren tables childrenOf Document.getNode
  cases d.nodes[d.bodyId]? <;> rfl

theorem place_module (m : Module) (h : (lineNumbers (definitions m.entries)).sum ≤ 2 ^ 40) :
    (∀ id ∈ m.intoMir.bodyChildren, ∃ r ch, (skeleton m.intoMir)[id]? = some (.record r, ch) ∧ ch.length ≤ 2 ^ 40) ∧
    370 + heightBound (skeleton m.intoMir) m.intoMir.bodyChildren ≤ 2 ^ 57 := by
  have hl : lineCounts m.intoMir = lineNumbers (definitions m.entries) := lineCounts_intoMir m
  have ht := tabular_intoMir m
  rw [bodyChildren_tables]
  have hsk : ∀ (id : Nat) n, m.intoMir.nodes[id]? = some n → (skeleton m.intoMir)[id]? = some (n.kind, n.children) := by
    intro id n hn; simp [skeleton, hn]
  have hch : ∀ (id : Nat) n, m.intoMir.nodes[id]? = some n → childrenOf m.intoMir id = n.children := by
    intro id n hn; simp [childrenOf, hn]
  have hmem : ∀ id ∈ tables m.intoMir, (childrenOf m.intoMir id).length ∈ lineNumbers (definitions m.entries) := by
    intro id hid; rw [← hl]; exact List.mem_map.mpr ⟨id, hid, rfl⟩
  constructor
  · intro id hid
    obtain ⟨n, r, h1, h2⟩ := ht.isTable id hid
    refine ⟨r, n.children, by rw [hsk id n h1, h2], ?_⟩
    rw [← hch id n h1]
    exact (List.single_le_sum (by simp) _ (hmem id hid)).trans h
  · have key : ∀ ids : List NodeId, (∀ id ∈ ids, id ∈ tables m.intoMir) →
        heightBound (skeleton m.intoMir) ids ≤ 880 * ((ids.map fun t => (childrenOf m.intoMir t).length).sum : Nat) := by
      intro ids
      induction ids with
      | nil => intro _; simp [heightBound]
      | cons id ids ih =>
        intro hids
        have ih := ih fun i hi => hids i (List.mem_cons_of_mem _ hi)
        obtain ⟨n, r, h1, h2⟩ := ht.isTable id (hids id (by simp))
        have hpos : (1 : Rat) ≤ (n.children.length : Rat) := by
          have := hmem id (hids id (by simp))
          rw [hch id n h1] at this
          obtain ⟨d, -, hd⟩ := List.mem_map.mp this
          rw [← hd]; push_cast; linarith [show (0 : Rat) ≤ d.fields.length from Nat.cast_nonneg _]
        unfold heightBound at ih ⊢
        simp only [List.map_cons, List.sum_cons, hsk id n h1, hch id n h1]
        push_cast at ih ⊢
        linarith
    have h1 := key (tables m.intoMir) fun _ h => h
    have h2 : ((tables m.intoMir).map fun t => (childrenOf m.intoMir t).length) = lineNumbers (definitions m.entries) := hl
    rw [h2] at h1
    have h3 : ((lineNumbers (definitions m.entries)).sum : Rat) ≤ 2 ^ 40 := by exact_mod_cast h
    have h4 : (880 : Rat) * 2 ^ 40 + 370 ≤ 2 ^ 57 := by norm_num
    linarith

/-! ## C96 -/

/-- **C96.** No special values: for a module with at most 2^40 lines, no coordinate computed by the layout, no point of the route graph
and no point of a path is `NaN`, infinite or the negative zero, however `f32::max` and `f32::min` choose between the two zeros. -/
theorem C96_ordinary (tie : Fl → Fl → Bool) (w : Nat → Nat) (q : Queue) (m : Module)
    (h : (lineNumbers (definitions m.entries)).sum ≤ 2 ^ 40) :
    let placed := placeNodesFl tie (FlDocument.ofMir m.intoMir)
    let doc := placeTerminalPortsFl placed.1
    (OrdinaryPoint placed.2.origin ∧ OrdinarySize placed.2.size) ∧
    (∀ n ∈ doc.nodes, (∀ o, n.origin = some o → OrdinaryPoint o) ∧ (∀ s, n.size = some s → OrdinarySize s) ∧
      ∀ p ∈ n.terminalPorts, OrdinaryPoint p.location) ∧
    ∀ doc' g', drawEdgePathFl w tie q doc FlRouteGraph.new = .ok (doc', g') →
      (∀ n ∈ g'.nodes, OrdinaryPoint n.location) ∧ ∀ e ∈ doc'.edges, ∀ ps, e.pathPoints = some ps → ∀ p ∈ ps, OrdinaryPoint p := by
  obtain ⟨hsk, hb⟩ := place_module m h
  obtain ⟨e1, n1, -⟩ := placeNodes_fl tie (docNum_intoMir m) hsk hb
  obtain ⟨e2, n2⟩ := placeTerminalPorts_fl _ n1
  intro placed doc
  have hp : placed = ((placeNodesR roundF32 m.intoMir).1.fl, (placeNodesR roundF32 m.intoMir).2.fl) := by
    show placeNodesFl tie (FlDocument.ofMir m.intoMir) = _
    rw [ofMir_eq, e1]
  have hd : doc = (placeTerminalPortsR roundF32 (placeNodesR roundF32 m.intoMir).1).fl := by
    show placeTerminalPortsFl placed.1 = _
    rw [hp, ← e2]
  refine ⟨?_, ?_, ?_⟩
  · rw [hp]; exact ⟨ordinary_point _, ordinary_size _⟩
  · rw [hd]
    intro n hn
    obtain ⟨k, -, rfl⟩ := List.mem_map.mp hn
    refine ⟨?_, ?_, ?_⟩
    · intro o ho
      obtain ⟨p, -, rfl⟩ := Option.map_eq_some_iff.mp ho
      exact ordinary_point p
    · intro s hs
      obtain ⟨p, -, rfl⟩ := Option.map_eq_some_iff.mp hs
      exact ordinary_size p
    · intro p hp
      obtain ⟨p, -, rfl⟩ := List.mem_map.mp hp
      exact ordinary_point _
  · intro doc' g' hr
    have := drawEdgePath_fl w tie q n2 (g := RouteGraph.new) (by nofun)
    rw [show RouteGraph.new.fl = FlRouteGraph.new from rfl, ← hd, hr] at this
    cases hm : drawEdgePathM w (buildRouteGraphR roundF32) (edgeCostR roundF32 sqrtF32) q (placeTerminalPortsR roundF32 (placeNodesR roundF32 m.intoMir).1) RouteGraph.new with
    | error e => rw [hm] at this; cases this
    | ok r =>
      rw [hm] at this
      obtain ⟨he, -⟩ := this
      simp only [Except.ok.injEq, Prod.mk.injEq] at he
      obtain ⟨rfl, rfl⟩ := he
      constructor
      · intro n hn
        obtain ⟨k, -, rfl⟩ := List.mem_map.mp hn
        exact ordinary_point _
      · intro e he ps hps
        obtain ⟨k, -, rfl⟩ := List.mem_map.mp he
        obtain ⟨ps', -, rfl⟩ := Option.map_eq_some_iff.mp hps
        intro p hp
        obtain ⟨p', -, rfl⟩ := List.mem_map.mp hp
        exact ordinary_point _

/-- **C96.** The drawing computed with all values of `f32` is the one computed with numbers rounded to single precision, in the text of every
attribute; both fail alike. -/
theorem C96_drawing (tie : Fl → Fl → Bool) (w : Nat → Nat) (q : Queue) (m : Module)
    (h : (lineNumbers (definitions m.entries)).sum ≤ 2 ^ 40) :
    drawModuleFl tie w q m = (drawModuleM roundF32 sqrtF32 w q m).map shown := by
  obtain ⟨hsk, hb⟩ := place_module m h
  obtain ⟨e1, n1, -⟩ := placeNodes_fl tie (docNum_intoMir m) hsk hb
  obtain ⟨e2, n2⟩ := placeTerminalPorts_fl _ n1
  have h3 := drawEdgePath_fl w tie q n2 (g := RouteGraph.new) (by nofun)
  unfold drawModuleFl drawModuleM
  rw [ofMir_eq, e1]
  simp only
  rw [e2, show FlRouteGraph.new = RouteGraph.new.fl from rfl]
  generalize drawEdgePathM w (buildRouteGraphR roundF32) (edgeCostR roundF32 sqrtF32) q (placeTerminalPortsR roundF32 (placeNodesR roundF32 m.intoMir).1) RouteGraph.new = r1 at h3 ⊢
  generalize drawEdgePathFl w tie q (placeTerminalPortsR roundF32 (placeNodesR roundF32 m.intoMir).1).fl RouteGraph.new.fl = r2 at h3 ⊢
  cases r1 with
  | error p => rw [show r2 = .error p from h3]; rfl
  | ok r =>
    obtain ⟨rfl, hd, he⟩ := h3
    simp only
    exact render_fl (some _) hd he

/-- **C96**, the text: for a source whose module has at most 2^40 lines, what is written is the same. -/
theorem C96_text (tie : Fl → Fl → Bool) (w : Nat → Nat) (q : Queue) (esc : Str → Str) (src : Str)
    (h : ∀ m, Contains src m → (lineNumbers (definitions m.entries)).sum ≤ 2 ^ 40) :
    stdoutTextFl tie w q esc src = stdoutTextM roundF32 sqrtF32 w q esc src := by
  unfold stdoutTextFl stdoutTextM
  cases hp : (parse src).1 with
  | none => rfl
  | some m =>
    simp only
    rw [C96_drawing tie w q m (h m ((parse_contains src m).mp hp))]
    cases drawModuleM roundF32 sqrtF32 w q m with
    | error e => rfl
    | ok e => simp only [Except.map, svgText_shown]

/-- **C96**, the program: for every input of at most 2^40 bytes, and whether the input can be read or not, the program does the same. -/
theorem C96_program (tie : Fl → Fl → Bool) (w : Nat → Nat) (q : Queue) (esc : Str → Str) (world : World) (name : Str)
    (input : Option (List UInt8)) (hin : InputOf world name input) (hsize : ∀ bs, input = some bs → bs.length ≤ 2 ^ 40) :
    runProgramFl tie w q esc world = runProgramM roundF32 sqrtF32 w q esc world := by
  have e1 : runProgramFl tie w q esc world = finishMainFl tie w q esc name (readToString input) := by
    cases hin with
    | file hargs => rw [runProgramFl, hargs]; rfl
    | stdin hargs => rw [runProgramFl, List.getElem?_eq_none (by omega)]
  have e2 : runProgramM roundF32 sqrtF32 w q esc world = finishMainM roundF32 sqrtF32 w q esc name (readToString input) := by
    cases hin with
    | file hargs => rw [runProgramM, hargs]; rfl
    | stdin hargs => rw [runProgramM, List.getElem?_eq_none (by omega)]
  rw [e1, e2]
  cases hr : readToString input with
  | none => rfl
  | some src =>
    unfold finishMainFl finishMainM
    simp only
    have hlen : src.length ≤ 2 ^ 40 := by
      cases input with
      | none => cases hr
      | some bs => exact (textBytes_length ((C77_utf8.1 bs src).mp hr)).trans (hsize bs rfl)
    rw [C96_text tie w q esc src fun m hm => by
      have h1 := (C88_sizes src m hm).1
      rw [lineNumbers_sum]
      omega]
    cases stdoutTextM roundF32 sqrtF32 w q esc src <;> rfl

theorem roundOr_roundF32 : roundOr roundF32 = roundF32 := by
  funext x
  unfold roundOr
  split <;> rfl

/-- **C96**, the exact model: for a file of at most 199000 bytes whose module has a table, the program, computing with all values of `f32` and
with 32-bit costs, does what the exact model does. -/
theorem C96_exact (tie : Fl → Fl → Bool) (wr : Nat → Nat) (hw : ∀ n < 4294967296, wr n = n) {q : Queue} {QI : List Entry → Prop}
    (hq : q.Lawful QI) (esc : Str → Str) (world : World) (name : Str) (bs : List UInt8) (hin : InputOf world name (some bs))
    (hsize : bs.length ≤ 199000) (ht : ∀ src m, TextBytes src bs → Contains src m → definitions m.entries ≠ []) :
    runProgramFl tie wr q esc world = runProgram q esc world := by
  rw [C96_program tie wr q esc world name (some bs) hin (by rintro _ ⟨⟩; omega)]
  have := C88_machine roundF32 wr hw hq esc world name bs hin hsize ht
  rwa [roundOr_roundF32] at this

/-- **C96**, modules without tables: exactly this text is written.  (The height is the least number of the format.) -/
theorem C96_empty (tie : Fl → Fl → Bool) (w : Nat → Nat) (q : Queue) (esc : Str → Str) (src : Str) (m : Module) (hm : Contains src m)
    (h : definitions m.entries = []) : stdoutTextFl tie w q esc src = some emptyText := by
  rw [C96_text tie w q esc src]
  · have := C79_empty roundF32 w q esc src m hm h
    rwa [roundOr_roundF32] at this
  · intro m' hm'
    rw [← parse_contains] at hm hm'
    rw [hm] at hm'
    cases hm'
    rw [h]
    exact Nat.zero_le _

/-! ## Examples -/

set_option maxRecDepth 1000000 in
/-- Two tables and a relation, computed with all values of `f32`: the path of the relation in the text. -/
example : let src := c!"erd { a { x int }\n b { y int }\n a.x o--o b.y }"
    (stdoutTextFl (fun _ _ => true) id BinHeap.queue id src).isSome = true ∧
    (stdoutTextFl (fun _ _ => true) id BinHeap.queue id src = stdoutText BinHeap.queue id src) ∧
    ((parse src).1.map fun m => (lineNumbers (definitions m.entries)).sum) = some 4 := by
  decide +kernel

set_option maxRecDepth 1000000 in
/-- A file, and another one that is not there. -/
example :
    (let o := runProgramFl (fun _ _ => false) id BinHeap.queue id (oneFile [c!"seiren", c!"a.erd"] c!"a.erd" (encodeUtf8 c!"erd { `é` { } }"));
      o.filename = c!"a.erd" ∧ 100 < o.stdout.length ∧ o.exit = .success) ∧
    runProgramFl (fun _ _ => false) id BinHeap.queue id (oneFile [c!"seiren", c!"b.erd"] c!"a.erd" []) = ⟨c!"b.erd", [], [], .failure⟩ ∧
    InputOf (oneFile [c!"seiren", c!"a.erd"] c!"a.erd" (encodeUtf8 c!"erd { `é` { } }")) c!"a.erd" (some (encodeUtf8 c!"erd { `é` { } }")) := by
  refine ⟨by decide +kernel, by decide +kernel, ?_⟩
  have h : (oneFile [c!"seiren", c!"a.erd"] c!"a.erd" (encodeUtf8 c!"erd { `é` { } }")).file c!"a.erd" = some (encodeUtf8 c!"erd { `é` { } }") := by
    decide +kernel
  rw [← h]
  exact .file rfl

/-- The ports of a table of one line, placed with all values of `f32`. -/
example :
    let m : Module := ⟨none, [.definition ⟨c!"a", []⟩]⟩
    let doc := placeTerminalPortsFl (placeNodesFl (fun _ _ => true) (FlDocument.ofMir m.intoMir)).1
    (doc.getNode 2).map (fun n => (n.rect, n.terminalPorts.map (·.location))) =
      some (some ⟨⟨.fin 50, .fin 50⟩, ⟨.fin 300, .fin 35⟩⟩,
        [⟨.fin 200, .fin 50⟩, ⟨.fin 350, .fin (135/2)⟩, ⟨.fin 200, .fin 85⟩, ⟨.fin 50, .fin (135/2)⟩]) ∧
    (placeNodesFl (fun _ _ => true) (FlDocument.ofMir m.intoMir)).2 = ⟨⟨.zero false, .zero false⟩, ⟨.fin 1160, .fin 135⟩⟩ := by
  decide +kernel

end Seiren
